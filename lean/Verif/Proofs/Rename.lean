import Verif.Model.Eval
import Verif.Spec.Rename
import Verif.Proofs.OutLemmas
import Verif.Proofs.AstInd
/-!
# Renaming commutes with evaluation
-/

set_option linter.unusedSectionVars false

namespace MUL
open Out Spec

/-! ### Outcomes that agree up to a change of errors -/

/-- Both outcomes are of the same kind, values are related by `R`, errors by `ρ`. -/
def Sim {ε α β : Type} (ρ : ε → ε) (R : α → β → Prop) : Out ε α → Out ε β → Prop
  | .ok a, .ok b => R a b
  | .err e, .err e' => e' = ρ e
  | .panic, .panic => True
  | .timeout, .timeout => True
  | _, _ => False

namespace Sim
variable {ε α β γ δ : Type} {ρ : ε → ε}

theorem bind {R : α → β → Prop} {S : γ → δ → Prop} {x : Out ε α} {y : Out ε β} {f : α → Out ε γ} {g : β → Out ε δ}
    (h : Sim ρ R x y) (hf : ∀ a b, R a b → Sim ρ S (f a) (g b)) : Sim ρ S (x >>= f) (y >>= g) := by
  cases x <;> cases y <;> first | exact absurd h id | skip
  · exact hf _ _ h
  · exact h
  · trivial
  · trivial

theorem mono {R S : α → β → Prop} {x : Out ε α} {y : Out ε β} (h : Sim ρ R x y) (hRS : ∀ a b, R a b → S a b) : Sim ρ S x y := by
  cases x <;> cases y <;> first | exact absurd h id | skip
  · exact hRS _ _ h
  · exact h
  · trivial
  · trivial

theorem mapM {P : α → β → Prop} {R : γ → δ → Prop} {l : List α} {l' : List β} (hl : List.Forall₂ P l l')
    {f : α → Out ε γ} {g : β → Out ε δ} (hf : ∀ a b, P a b → Sim ρ R (f a) (g b)) : Sim ρ (List.Forall₂ R) (l.mapM f) (l'.mapM g) := by
  induction hl with
  | nil => exact List.Forall₂.nil
  | cons h _ ih =>
    simp only [List.mapM_cons]
    refine (hf _ _ h).bind fun a b hab => ih.bind fun as bs habs => ?_
    exact List.Forall₂.cons hab habs

theorem mapM_same {R : γ → δ → Prop} {l : List α} {f : α → Out ε γ} {g : α → Out ε δ} (hf : ∀ a ∈ l, Sim ρ R (f a) (g a)) :
    Sim ρ (List.Forall₂ R) (l.mapM f) (l.mapM g) := by
  induction l with
  | nil => exact List.Forall₂.nil
  | cons a l ih =>
    simp only [List.mapM_cons]
    refine (hf a (by simp)).bind fun a b hab => (ih fun a ha => hf a (by simp [ha])).bind fun as bs habs => ?_
    exact List.Forall₂.cons hab habs

theorem mapM_map {R : γ → δ → Prop} {l : List α} {m : α → β} {f : α → Out ε γ} {g : β → Out ε δ}
    (hf : ∀ a ∈ l, Sim ρ R (f a) (g (m a))) : Sim ρ (List.Forall₂ R) (l.mapM f) ((l.map m).mapM g) := by
  induction l with
  | nil => exact List.Forall₂.nil
  | cons a l ih =>
    simp only [List.map_cons, List.mapM_cons]
    refine (hf a (by simp)).bind fun a b hab => (ih fun a ha => hf a (by simp [ha])).bind fun as bs habs => ?_
    exact List.Forall₂.cons hab habs

theorem eqs {x : Out ε (List α)} {y : Out ε (List α)} (h : Sim ρ (List.Forall₂ Eq) x y) : Sim ρ Eq x y :=
  h.mono fun a b hab => by
    induction hab with
    | nil => rfl
    | cons h _ ih => rw [h, ih]

theorem idx {R : α → β → Prop} {l : List α} {l' : List β} (h : List.Forall₂ R l l') (i : Nat) :
    Sim ρ R (MUL.idx l i) (MUL.idx l' i) := by
  unfold MUL.idx
  by_cases hi : i < l.length
  · have hi' : i < l'.length := by rw [← h.length_eq]; exact hi
    rw [List.getElem?_eq_getElem hi, List.getElem?_eq_getElem hi']
    exact List.Forall₂.get h hi hi'
  · have hi' : ¬ i < l'.length := by rw [← h.length_eq]; exact hi
    rw [List.getElem?_eq_none (by omega), List.getElem?_eq_none (by omega)]
    trivial

theorem idx_same (l : List α) (i : Nat) : Sim ρ Eq (MUL.idx l i) (MUL.idx l i) := by
  unfold MUL.idx
  cases l[i]? with
  | none => trivial
  | some a => exact rfl

theorem idx_map (l : List α) (m : α → β) (i : Nat) : Sim ρ (fun a b => b = m a) (MUL.idx l i) (MUL.idx (l.map m) i) := by
  unfold MUL.idx
  rw [List.getElem?_map]
  cases l[i]? with
  | none => trivial
  | some a => exact rfl

theorem unwrap (o : Option α) : Sim ρ Eq (Out.unwrap o : Out ε α) (Out.unwrap o) := by
  cases o with
  | none => trivial
  | some a => exact rfl

theorem iff_mapErr {x y : Out ε α} : Sim ρ Eq x y ↔ y = x.mapErr ρ := by
  cases x <;> cases y <;> simp [Sim, Out.mapErr, eq_comm]

/-- Outcomes whose errors do not change. -/
theorem same {x : Out ε α} (h : ∀ e, x = .err e → ρ e = e) : Sim ρ Eq x x := by
  rw [iff_mapErr]
  cases x with
  | err e => simp [Out.mapErr, h e rfl]
  | _ => rfl

theorem fixed {x : Out ε α} (h : Sim ρ Eq x x) : ∀ e, x = .err e → ρ e = e := by
  rintro e rfl
  exact h.symm

end Sim

section
variable {F : Type} [FNum F] {σ τ : Str → Str}

local notation "ρ" => renameErr σ τ

/-! ### Trees and contexts -/

theorem renameAll_eq (l : List (AST F)) : renameAll σ τ l = l.map (rename σ τ) := by
  induction l with
  | nil => rfl
  | cons a l ih => rw [renameAll, ih, List.map_cons]

theorem renameRows_eq (m : List (List (AST F))) : renameRows σ τ m = m.map fun r => r.map (rename σ τ) := by
  induction m with
  | nil => rfl
  | cons a l ih => rw [renameRows, ih, List.map_cons, renameAll_eq]

theorem renameEqs_eq (es : List (AST F × AST F)) : renameEqs σ τ es = es.map fun p => (rename σ τ p.1, rename σ τ p.2) := by
  induction es with
  | nil => rfl
  | cons p l ih => obtain ⟨l, r⟩ := p; rw [renameEqs, ih, List.map_cons]

theorem rename_fromValue (v : Value F) : rename σ τ (AST.fromValue v) = AST.fromValue v := by
  cases v with
  | scalar s => rfl
  | vector v => simp only [AST.fromValue, rename, renameAll_eq, List.map_map]; rfl
  | matrix m =>
    simp only [AST.fromValue, rename, renameRows_eq, List.map_map]
    congr 1
    refine List.map_congr_left fun r _ => ?_
    simp [Function.comp_def, rename]

theorem rename_differenceQuotient (cfg : Cfg) (v w : Value F) : rename σ τ (differenceQuotient cfg v w) = differenceQuotient cfg v w := by
  simp only [differenceQuotient, rename, rename_fromValue]

variable (hσ : Function.Injective σ) (hτ : Function.Injective τ)
include hσ

theorem name_beq (a b : Str) : (σ a == σ b) = (a == b) := by
  rw [Bool.eq_iff_iff]
  simp [hσ.eq_iff]

theorem name_bne (a b : Str) : (σ a != σ b) = (a != b) := by
  simp only [bne, name_beq hσ]

theorem filter_rename (vars : List (Variable F)) (n : Str) :
    (vars.map (renameVar σ)).filter (fun w => w.name != σ n) = (vars.filter fun w => w.name != n).map (renameVar σ) := by
  rw [List.filter_map]
  congr 1
  refine List.filter_congr fun v _ => ?_
  exact name_bne hσ v.name n

theorem addVar_rename (c : Context F) (v : Variable F) : (renameCtx σ τ c).addVar (renameVar σ v) = renameCtx σ τ (c.addVar v) := by
  simp only [Context.addVar, renameCtx, List.map_append, List.map_cons, List.map_nil]
  congr 2
  exact filter_rename hσ c.vars v.name

theorem removeVar_rename (c : Context F) (n : Str) : (renameCtx σ τ c).removeVar (σ n) = renameCtx σ τ (c.removeVar n) := by
  simp only [Context.removeVar, renameCtx]
  congr 1
  exact filter_rename hσ c.vars n

theorem findVar_rename (c : Context F) (n : Str) : (renameCtx σ τ c).findVar (σ n) = c.findVar n := by
  simp only [Context.findVar, renameCtx, List.find?_map, Option.map_map]
  have : ((fun w : Variable F => w.name == σ n) ∘ renameVar σ) = fun w => w.name == n := by
    funext w
    exact name_beq hσ w.name n
  rw [this]
  rfl

theorem any_rename (vars : List (Variable F)) (n : Str) :
    ((vars.map (renameVar σ)).any fun v => v.name == σ n) = vars.any fun v => v.name == n := by
  rw [List.any_map]
  congr 1
  funext v
  exact name_beq hσ v.name n

theorem dropVar_rename (c : Context F) (n : Str) : dropVar (renameCtx σ τ c) (σ n) = renameCtx σ τ (dropVar c n) := by
  unfold dropVar
  rw [show (renameCtx σ τ c).vars = c.vars.map (renameVar σ) from rfl, any_rename hσ]
  split
  · exact removeVar_rename hσ c n
  · rfl

theorem eraseFirst_rename (vars : List (Variable F)) (n : Str) :
    eraseFirstVar (vars.map (renameVar σ)) (σ n) = (eraseFirstVar vars n).map (renameVar σ) := by
  unfold eraseFirstVar
  induction vars with
  | nil => rfl
  | cons v vars ih =>
    simp only [List.map_cons, List.eraseP_cons, renameVar, name_beq hσ]
    by_cases hv : (v.name == n) = true
    · rw [hv]; rfl
    · rw [Bool.eq_false_iff.2 hv, cond_false, cond_false, ih]; rfl

theorem addVars_rename (c : Context F) (x : List (Variable F)) :
    addVars (renameCtx σ τ c) (x.map (renameVar σ)) = renameCtx σ τ (addVars c x) := by
  unfold addVars
  induction x generalizing c with
  | nil => rfl
  | cons v x ih => rw [List.map_cons, List.foldl_cons, List.foldl_cons, addVar_rename hσ, ih]

theorem removeVars_rename (c : Context F) (x : List (Variable F)) :
    removeVars (renameCtx σ τ c) (x.map (renameVar σ)) = renameCtx σ τ (removeVars c x) := by
  unfold removeVars
  induction x generalizing c with
  | nil => rfl
  | cons v x ih => 
    rw [List.map_cons, List.foldl_cons, List.foldl_cons]
    have : (renameCtx σ τ c).removeVar (renameVar σ v).name = renameCtx σ τ (c.removeVar v.name) := removeVar_rename hσ c v.name
    rw [this, ih]

theorem callVars_rename (inputs : List Str) (p : List (Value F)) (vars : List (Variable F)) :
    callVars (inputs.map σ) p (vars.map (renameVar σ)) = (callVars inputs p vars).map (renameVar σ) := by
  unfold callVars
  simp only
  have h0 : ((inputs.map σ).zip p).map (fun np => (⟨np.1, [np.2]⟩ : Variable F)) =
      ((inputs.zip p).map fun np => (⟨np.1, [np.2]⟩ : Variable F)).map (renameVar σ) := by
    rw [List.zip_map_left, List.map_map, List.map_map]
    rfl
  rw [h0]
  generalize (inputs.zip p).map (fun np => (⟨np.1, [np.2]⟩ : Variable F)) = acc
  induction vars generalizing acc with
  | nil => rfl
  | cons v vars ih =>
    rw [List.map_cons, List.foldl_cons, List.foldl_cons]
    have hc : ((acc.map (renameVar σ)).map (·.name)).contains (renameVar σ v).name = (acc.map (·.name)).contains v.name := by
      rw [Bool.eq_iff_iff, List.contains_iff_mem, List.contains_iff_mem, List.map_map]
      have : ((fun x : Variable F => x.name) ∘ renameVar σ) = σ ∘ fun x => x.name := rfl
      rw [this, ← List.map_map, show (renameVar σ v).name = σ v.name from rfl, List.mem_map_of_injective hσ]
    rw [hc]
    split
    · exact ih acc
    · have := ih (acc ++ [v])
      rw [List.map_append] at this
      exact this

omit hσ in
include hτ in
theorem findFun_rename (c : Context F) (n : Str) : (renameCtx σ τ c).findFun (τ n) = (c.findFun n).map (renameFun σ τ) := by
  simp only [Context.findFun, renameCtx, List.find?_map]
  congr 2
  funext w
  exact name_beq hτ w.name n

/-! ### Calculus -/

omit hσ

theorem sim_lift {α : Type} (x : Out String α) : Sim ρ Eq (liftMath x) (liftMath x) := by
  refine Sim.same fun e he => ?_
  cases x <;> simp [liftMath, Out.mapErr] at he
  subst he
  rfl

theorem sim_accumulate (s e : List (Value F)) : Sim ρ Eq (accumulate s e) (accumulate s e) := by
  induction e generalizing s with
  | nil => cases s <;> exact rfl
  | cons a e ih =>
    cases s with
    | nil => exact (ih []).bind fun _ _ h => by subst h; exact rfl
    | cons b s => exact (sim_lift _).bind fun _ _ h => (ih s).bind fun _ _ h' => by subst h; subst h'; exact rfl

/-- `ev'` does on renamed trees and contexts what `ev` does on the originals. -/
def Renames (σ τ : Str → Str) (ev ev' : Evaluator F) : Prop :=
  ∀ a c, Sim (renameErr σ τ) Eq (ev a c) (ev' (rename σ τ a) (renameCtx σ τ c))

variable {ev ev' : Evaluator F}

theorem Renames.const (h : Renames σ τ ev ev') (a : AST F) (ha : rename σ τ a = a) (c : Context F) :
    Sim ρ Eq (ev a c) (ev' a (renameCtx σ τ c)) := by
  have := h a c
  rwa [ha] at this

theorem sim_integralLoop (h : Renames σ τ ev ev') (e : AST F) (x : Str) (vars : List (Variable F)) (funs : List (Function F)) (ub dx : F)
    (n : Nat) (b : F) (sums : List (Value F)) :
    Sim ρ Eq (integralLoop ev e x vars funs ub dx n b sums)
      (integralLoop ev' (rename σ τ e) (σ x) (vars.map (renameVar σ)) (funs.map (renameFun σ τ)) ub dx n b sums) := by
  induction n generalizing b sums with
  | zero =>
    unfold integralLoop
    split
    · trivial
    · exact rfl
  | succ n ih =>
    unfold integralLoop
    split
    · have := h e ⟨vars ++ [⟨x, [.scalar (FArith.div (FArith.add b (FArith.sub b dx)) (FArith.ofInt 2))]⟩], funs⟩
      simp only [renameCtx, List.map_append, List.map_cons, List.map_nil] at this
      refine this.bind fun a a' ha => ?_
      subst ha
      exact (sim_accumulate _ _).bind fun _ _ h' => by subst h'; exact ih _ _
    · exact rfl

include hσ in
theorem sim_integral (h : Renames σ τ ev ev') (cfg : Cfg) (n : Nat) (e : AST F) (x : Str) (lo hi : Value F) (c : Context F) :
    Sim ρ Eq (calculateIntegral cfg ev n e x lo hi c) (calculateIntegral cfg ev' n (rename σ τ e) (σ x) lo hi (renameCtx σ τ c)) := by
  unfold calculateIntegral
  simp only
  cases lo with
  | scalar a =>
    cases hi with
    | scalar b =>
      simp only
      split
      · exact rfl
      · rw [show (renameCtx σ τ c).vars = c.vars.map (renameVar σ) from rfl, eraseFirst_rename hσ]
        refine (sim_integralLoop h e x _ c.funs _ _ n _ _).bind fun a a' ha => ?_
        subst ha
        exact (Sim.mapM_same fun _ _ => sim_lift _).eqs
    | _ => exact rfl
  | _ => cases hi <;> exact rfl

include hσ in
theorem sim_derivative (h : Renames σ τ ev ev') (cfg : Cfg) (e : AST F) (x : Str) (v : Value F) (c : Context F) :
    Sim ρ Eq (calculateDerivative cfg ev e x v c) (calculateDerivative cfg ev' (rename σ τ e) (σ x) v (renameCtx σ τ c)) := by
  unfold calculateDerivative
  simp only
  rw [dropVar_rename hσ]
  generalize dropVar c x = c
  cases v with
  | scalar s =>
    simp only
    have e1 : (renameCtx σ τ c).addVar ⟨σ x, [.scalar s]⟩ = renameCtx σ τ (c.addVar ⟨x, [.scalar s]⟩) := addVar_rename hσ c ⟨x, [.scalar s]⟩
    rw [e1]
    refine (h _ _).bind fun a a' ha => ?_
    subst ha
    rw [removeVar_rename hσ]
    have e2 : ∀ (c : Context F) (w : List (Value F)), (renameCtx σ τ c).addVar ⟨σ x, w⟩ = renameCtx σ τ (c.addVar ⟨x, w⟩) :=
      fun c w => addVar_rename hσ c ⟨x, w⟩
    rw [e2]
    refine (h _ _).bind fun b b' hb => ?_
    subst hb
    split
    · exact rfl
    · refine Sim.bind (R := Eq) ?_ fun _ _ h => by subst h; exact rfl
      refine (Sim.mapM_same fun i _ => ?_).eqs
      refine (Sim.idx_same _ _).bind fun _ _ h1 => (Sim.idx_same _ _).bind fun _ _ h2 => ?_
      subst h1; subst h2
      exact h.const _ (rename_differenceQuotient cfg _ _) _
  | _ => exact rfl

include hσ in
theorem sim_derivativeNewton (h : Renames σ τ ev ev') (cfg : Cfg) (e : AST F) (x : Str) (v fx : Value F) (c : Context F) :
    Sim ρ Eq (calculateDerivativeNewton cfg ev e x v (some fx) c)
      (calculateDerivativeNewton cfg ev' (rename σ τ e) (σ x) v (some fx) (renameCtx σ τ c)) := by
  unfold calculateDerivativeNewton
  simp only
  rw [dropVar_rename hσ]
  generalize dropVar c x = c
  cases v with
  | scalar s =>
    simp only [ok_bind]
    have e2 : ∀ (c : Context F) (w : List (Value F)), (renameCtx σ τ c).addVar ⟨σ x, w⟩ = renameCtx σ τ (c.addVar ⟨x, w⟩) :=
      fun c w => addVar_rename hσ c ⟨x, w⟩
    rw [e2]
    refine (h _ _).bind fun b b' hb => ?_
    subst hb
    refine (Sim.unwrap _).bind fun _ _ h1 => ?_
    subst h1
    refine (h.const _ (rename_differenceQuotient cfg _ _) _).bind fun _ _ h2 => ?_
    subst h2
    exact Sim.unwrap _
  | _ => exact rfl

/-! ### Root finder -/

/-- The errors of the outcome are not changed by renaming. -/
theorem sim_elimStep {z : EvalError} (hz : ρ z = z) (v : List (List F)) (ij : Nat × Nat) : Sim ρ Eq (elimStep z v ij) (elimStep z v ij) := by
  have h2 : ∀ (l : List (List F)) (i j : Nat), Sim ρ Eq (idx2 l i j) (idx2 l i j) := by
    intro l i j
    unfold idx2
    exact (Sim.idx_same _ _).bind fun _ _ h => by subst h; exact Sim.idx_same _ _
  unfold elimStep
  simp only
  refine (h2 _ _ _).bind fun _ _ h => ?_
  subst h
  refine (h2 _ _ _).bind fun _ _ h => ?_
  subst h
  refine (Sim.idx_same _ _).bind fun _ _ h => ?_
  subst h
  refine (Sim.idx_same _ _).bind fun _ _ h => ?_
  subst h
  refine Sim.bind (R := Eq) ?_ fun _ _ h => ?_
  · refine (Sim.mapM_same fun i _ => ?_).eqs
    obtain ⟨x, k⟩ := i
    simp only
    split
    · exact rfl
    · exact (Sim.idx_same _ _).bind fun _ _ h => by subst h; exact rfl
  · subst h
    split
    · exact hz.symm
    · exact rfl

theorem sim_gauss (v : List (List F)) : Sim ρ Eq (gaussAlgorithm v) (gaussAlgorithm v) := by
  have he : ∀ v : List (List F), Sim ρ Eq (eliminate EvalError.infiniteSolutions v) (eliminate .infiniteSolutions v) := by
    intro v
    unfold eliminate
    generalize elimPairs v.length = ps
    induction ps generalizing v with
    | nil => exact rfl
    | cons p ps ih =>
      simp only [List.foldlM_cons]
      exact (sim_elimStep rfl _ _).bind fun _ _ h => by subst h; exact ih _
  unfold gaussAlgorithm
  refine (Sim.idx_same _ _).bind fun _ _ h => ?_
  subst h
  split
  · exact rfl
  · refine (he _).bind fun _ _ h => ?_
    subst h
    simp only
    refine (he _).bind fun _ _ h => ?_
    subst h
    refine Sim.bind (R := Eq) ?_ fun _ _ h => by subst h; exact rfl
    refine (Sim.mapM_same fun i _ => ?_).eqs
    refine (Sim.idx_same _ _).bind fun _ _ h => ?_
    subst h
    refine (Sim.idx_same _ _).bind fun _ _ h => ?_
    subst h
    refine (Sim.idx_same _ _).bind fun _ _ h => ?_
    subst h
    exact rfl

theorem sim_firstScalar (vs : List (Value F)) : Sim ρ Eq (firstScalar vs) (firstScalar vs) := by
  unfold firstScalar
  exact (Sim.unwrap _).bind fun _ _ h => by subst h; exact Sim.unwrap _

theorem forall₂_eq_map {α β : Type} {f : α → β} {l : List α} {l' : List β} (h : List.Forall₂ (fun a b => b = f a) l l') : l' = l.map f := by
  induction h with
  | nil => rfl
  | cons h _ ih => rw [h, ih, List.map_cons]

include hσ in
theorem sim_jacobi (h : Renames σ τ ev ev') (cfg : Cfg) (es : List (AST F)) (x : List (Variable F)) (c : Context F) (fx : List F) :
    Sim ρ (fun a b => b = a.map (renameVar σ)) (jacobiAndGauss cfg ev es x c fx)
      (jacobiAndGauss cfg ev' (es.map (rename σ τ)) (x.map (renameVar σ)) (renameCtx σ τ c) fx) := by
  unfold jacobiAndGauss
  rw [List.length_map, List.length_map]
  refine Sim.bind (R := Eq) ?_ fun _ _ hj => ?_
  · refine (Sim.mapM_same fun i _ => ?_).eqs
    refine (Sim.mapM_same fun j _ => ?_).eqs
    simp only
    refine (Sim.idx_map es (rename σ τ) i).bind fun e e' he => ?_
    subst he
    refine (Sim.idx_map x (renameVar σ) j).bind fun v v' hv => ?_
    subst hv
    refine (Sim.unwrap (v.values[0]?)).bind fun a a' ha => ?_
    subst ha
    refine (Sim.idx_same fx i).bind fun f f' hf => ?_
    subst hf
    have ho : ((List.range x.length).filter fun k => j != k).filterMap (fun k => (x.map (renameVar σ))[k]?) =
        (((List.range x.length).filter fun k => j != k).filterMap fun k => x[k]?).map (renameVar σ) := by
      rw [List.map_filterMap]
      congr 1
      funext k
      rw [List.getElem?_map]
    have := sim_derivativeNewton hσ h cfg e v.name a (.scalar f)
      ⟨c.vars ++ ((List.range x.length).filter fun k => j != k).filterMap fun k => x[k]?, c.funs⟩
    simp only [renameCtx, List.map_append] at this
    rw [ho]
    refine this.bind fun d d' hd => ?_
    subst hd
    exact Sim.unwrap _
  · subst hj
    refine Sim.bind (R := Eq) ?_ fun _ _ hj => ?_
    · refine (Sim.mapM_same fun i _ => ?_).eqs
      refine (Sim.idx_same _ _).bind fun _ _ h => ?_
      subst h
      exact (Sim.idx_same _ _).bind fun _ _ h => by subst h; exact rfl
    · subst hj
      refine (sim_gauss _).bind fun d d' hd => ?_
      subst hd
      refine Sim.mono (R := List.Forall₂ fun a b => b = renameVar σ a) ?_ fun a b hab => forall₂_eq_map hab
      refine Sim.mapM_same fun i _ => ?_
      refine (Sim.idx_map x (renameVar σ) i).bind fun v v' hv => ?_
      subst hv
      refine (Sim.unwrap _).bind fun _ _ h => ?_
      subst h
      refine (Sim.idx_same _ _).bind fun _ _ h => ?_
      subst h
      refine (sim_firstScalar _).bind fun _ _ h => ?_
      subst h
      exact rfl

theorem sim_evalScalars (h : Renames σ τ ev ev') (es : List (AST F)) (c : Context F) :
    Sim ρ Eq (evalScalars ev es c) (evalScalars ev' (es.map (rename σ τ)) (renameCtx σ τ c)) := by
  unfold evalScalars
  refine (Sim.mapM_map fun e _ => ?_).eqs
  exact (h e c).bind fun _ _ h => by subst h; exact sim_firstScalar _

/-- The next or final points agree up to the names. -/
def SimReturn (σ : Str → Str) : NewtonReturn F → NewtonReturn F → Prop
  | .nextX x, .nextX x' => x' = x.map (renameVar σ)
  | .finishedX x, .finishedX x' => x' = x.map (renameVar σ)
  | _, _ => False

include hσ in
theorem foldl_addVar_rename (vs : List (Value F)) (names : List Str) (c : Context F) :
    (names.map σ).foldl (fun c i => c.addVar ⟨i, vs⟩) (renameCtx σ τ c) =
      renameCtx σ τ (names.foldl (fun c i => c.addVar ⟨i, vs⟩) c) := by
  induction names generalizing c with
  | nil => rfl
  | cons n names ih =>
    rw [List.map_cons, List.foldl_cons, List.foldl_cons, ← ih]
    congr 1
    exact addVar_rename hσ c ⟨n, _⟩

include hσ in
theorem foldl_removeVar_rename (names : List Str) (c : Context F) :
    (names.map σ).foldl (fun c i => c.removeVar i) (renameCtx σ τ c) =
      renameCtx σ τ (names.foldl (fun c i => c.removeVar i) c) := by
  induction names generalizing c with
  | nil => rfl
  | cons n names ih =>
    rw [List.map_cons, List.foldl_cons, List.foldl_cons, ← ih]
    congr 1
    exact removeVar_rename hσ c n

include hσ in
theorem sim_newton (h : Renames σ τ ev ev') (cfg : Cfg) (es cs : List (AST F)) (x : List (Variable F)) (c : Context F) :
    Sim ρ (SimReturn σ) (newton cfg ev es cs x c).1
      (newton cfg ev' (es.map (rename σ τ)) (cs.map (rename σ τ)) (x.map (renameVar σ)) (renameCtx σ τ c)).1 ∧
    (newton cfg ev' (es.map (rename σ τ)) (cs.map (rename σ τ)) (x.map (renameVar σ)) (renameCtx σ τ c)).2 =
      renameCtx σ τ (newton cfg ev es cs x c).2 := by
  unfold newton
  simp only
  rw [addVars_rename hσ]
  have h1 := Sim.iff_mapErr.1 (sim_evalScalars h es (addVars c x))
  rw [h1]
  cases evalScalars ev es (addVars c x) with
  | err e => exact ⟨rfl, rfl⟩
  | panic => exact ⟨trivial, rfl⟩
  | timeout => exact ⟨trivial, rfl⟩
  | ok fx =>
    simp only [Out.mapErr]
    rw [removeVars_rename hσ]
    split
    · rw [addVars_rename hσ]
      have h2 := Sim.iff_mapErr.1 (sim_evalScalars h cs (addVars (removeVars (addVars c x) x) x))
      rw [h2]
      cases evalScalars ev cs (addVars (removeVars (addVars c x) x) x) with
      | err e => exact ⟨rfl, rfl⟩
      | panic => exact ⟨trivial, rfl⟩
      | timeout => exact ⟨trivial, rfl⟩
      | ok r =>
        simp only [Out.mapErr]
        rw [removeVars_rename hσ]
        split
        · exact ⟨rfl, rfl⟩
        · split
          · exact ⟨rfl, rfl⟩
          · exact ⟨rfl, rfl⟩
    · have h2 := sim_jacobi hσ h cfg es x (removeVars (addVars c x) x) fx
      cases hj : jacobiAndGauss cfg ev es x (removeVars (addVars c x) x) fx with
      | err e =>
        rw [hj] at h2
        cases hj' : jacobiAndGauss cfg ev' (es.map (rename σ τ)) (x.map (renameVar σ)) (renameCtx σ τ (removeVars (addVars c x) x)) fx with
        | err e' => rw [hj'] at h2; exact ⟨h2, rfl⟩
        | _ => rw [hj'] at h2; exact absurd h2 id
      | panic =>
        rw [hj] at h2
        cases hj' : jacobiAndGauss cfg ev' (es.map (rename σ τ)) (x.map (renameVar σ)) (renameCtx σ τ (removeVars (addVars c x) x)) fx with
        | panic => exact ⟨trivial, rfl⟩
        | _ => rw [hj'] at h2; exact absurd h2 id
      | timeout =>
        rw [hj] at h2
        cases hj' : jacobiAndGauss cfg ev' (es.map (rename σ τ)) (x.map (renameVar σ)) (renameCtx σ τ (removeVars (addVars c x) x)) fx with
        | timeout => exact ⟨trivial, rfl⟩
        | _ => rw [hj'] at h2; exact absurd h2 id
      | ok y =>
        rw [hj] at h2
        cases hj' : jacobiAndGauss cfg ev' (es.map (rename σ τ)) (x.map (renameVar σ)) (renameCtx σ τ (removeVars (addVars c x) x)) fx with
        | ok y' =>
          rw [hj'] at h2
          have hy : y' = y.map (renameVar σ) := h2
          subst hy
          simp only
          have h3 : ((y.map (renameVar σ)).mapM fun i => (Out.unwrap i.values[0]? : Out EvalError (Value F))) =
              y.mapM fun i => (Out.unwrap i.values[0]? : Out EvalError (Value F)) := by
            induction y with
            | nil => rfl
            | cons v y ih => 
              clear h2 hj hj'
              rw [List.map_cons, List.mapM_cons, List.mapM_cons]
              have : ∀ y : List (Variable F), ((y.map (renameVar σ)).mapM fun i => (Out.unwrap i.values[0]? : Out EvalError (Value F))) =
                  y.mapM fun i => (Out.unwrap i.values[0]? : Out EvalError (Value F)) := by
                intro y
                induction y with
                | nil => rfl
                | cons v y ih => rw [List.map_cons, List.mapM_cons, List.mapM_cons, ih]; rfl
              rw [this]
              rfl
          rw [h3]
          have h4 : Sim ρ Eq (y.mapM fun i => (Out.unwrap i.values[0]? : Out EvalError (Value F)))
              (y.mapM fun i => (Out.unwrap i.values[0]? : Out EvalError (Value F))) := (Sim.mapM_same fun _ _ => Sim.unwrap _).eqs
          cases hm : (y.mapM fun i => (Out.unwrap i.values[0]? : Out EvalError (Value F))) with
          | ok vs =>
            simp only
            split
            · exact ⟨rfl, rfl⟩
            · exact ⟨rfl, rfl⟩
          | err e => rw [hm] at h4; exact ⟨h4, rfl⟩
          | panic => exact ⟨trivial, rfl⟩
          | timeout => exact ⟨trivial, rfl⟩
        | _ => rw [hj'] at h2; exact absurd h2 id

theorem sim_resultValue (x : List (Variable F)) : Sim ρ Eq (resultValue x) (resultValue (x.map (renameVar σ))) := by
  unfold resultValue
  refine Sim.bind (R := Eq) ?_ fun r r' h => ?_
  · exact (Sim.mapM_map fun v _ => sim_firstScalar v.values).eqs
  · subst h
    split <;> exact rfl

/-- What one start value gives agrees up to the names in the context. -/
def SimLoop1 (σ τ : Str → Str) (r r' : Loop1 F) : Prop := r'.found = r.found ∧ r'.stop = r.stop ∧ r'.ctx = renameCtx σ τ r.ctx

include hσ in
theorem sim_solveLoop1 (h : Renames σ τ ev ev') (cfg : Cfg) (es cs : List (AST F)) (n : Nat) (x : List (Variable F)) (c : Context F) :
    Sim ρ (SimLoop1 σ τ) (solveLoop1 cfg ev es cs n x c)
      (solveLoop1 cfg ev' (es.map (rename σ τ)) (cs.map (rename σ τ)) n (x.map (renameVar σ)) (renameCtx σ τ c)) := by
  induction n generalizing x c with
  | zero => exact ⟨rfl, rfl, rfl⟩
  | succ n ih =>
    unfold solveLoop1
    obtain ⟨h1, h2⟩ := sim_newton hσ h cfg es cs x c
    generalize newton cfg ev es cs x c = p at h1 h2
    generalize newton cfg ev' (es.map (rename σ τ)) (cs.map (rename σ τ)) (x.map (renameVar σ)) (renameCtx σ τ c) = q at h1 h2
    obtain ⟨p, d⟩ := p
    obtain ⟨q, d'⟩ := q
    simp only at h1 h2
    subst h2
    cases p <;> cases q <;> first | exact absurd h1 id | skip
    · rename_i a b
      cases a <;> cases b <;> first | exact absurd h1 id | skip
      · have h1 : _ = _ := h1
        subst h1
        exact ih _ _
      · have h1 : _ = _ := h1
        subst h1
        exact (sim_resultValue _).bind fun v v' hv => by subst hv; exact ⟨rfl, rfl, rfl⟩
    · have h1 : _ = _ := h1
      subst h1
      rename_i e
      cases e <;> first | exact rfl | exact ⟨rfl, rfl, rfl⟩
    · trivial
    · trivial

include hσ in
theorem sim_solveLoop0 (h : Renames σ τ ev ev') (cfg : Cfg) (es cs : List (AST F)) (names : List Str) (js : List Int) (c : Context F)
    (acc : List (Value F)) :
    Sim ρ Eq (solveLoop0 cfg ev es cs names js c acc)
      (solveLoop0 cfg ev' (es.map (rename σ τ)) (cs.map (rename σ τ)) (names.map σ) js (renameCtx σ τ c) acc) := by
  induction js generalizing c acc with
  | nil => exact rfl
  | cons j js ih =>
    unfold solveLoop0
    simp only
    have hx : (names.map σ).map (fun k => (⟨k, [.scalar (FArith.ofInt j)]⟩ : Variable F)) =
        (names.map fun k => (⟨k, [.scalar (FArith.ofInt j)]⟩ : Variable F)).map (renameVar σ) := by
      rw [List.map_map, List.map_map]
      rfl
    rw [hx]
    refine (sim_solveLoop1 hσ h cfg es cs 1000 _ c).bind fun r r' hr => ?_
    obtain ⟨h1, h2, h3⟩ := hr
    rw [h1, h2, h3]
    by_cases hs : r.stop = true
    · rw [if_pos hs, if_pos hs]; exact rfl
    · rw [if_neg hs, if_neg hs]; exact ih _ _

theorem eraseIdx_map' {α β : Type} (f : α → β) (l : List α) (k : Nat) : (l.map f).eraseIdx k = (l.eraseIdx k).map f := by
  induction l generalizing k with
  | nil => rfl
  | cons a l ih =>
    cases k with
    | zero => rfl
    | succ k => simp [ih]

theorem splitExprs_map {ε α β : Type} (f : α → β) (js : List Nat) (k : Nat) (s c : List α) (ρ' : ε → ε) :
    Sim ρ' (fun a b => b = (a.1.map f, a.2.map f)) (splitExprs js k s c) (splitExprs js k (s.map f) (c.map f)) := by
  induction js generalizing k s c with
  | nil => exact rfl
  | cons j js ih =>
    unfold splitExprs
    split
    · trivial
    · refine (Sim.idx_map c f (j - k)).bind fun e e' he => ?_
      subst he
      have := ih (k + 1) (s ++ [e]) (c.eraseIdx (j - k))
      rw [List.map_append, ← eraseIdx_map'] at this
      exact this

theorem sim_sortByKey (key : F → F) (l : List (Value F)) : Sim ρ Eq (sortByKey key l) (sortByKey key l) := by
  unfold sortByKey
  refine Sim.bind (R := Eq) ?_ fun _ _ h => ?_
  · refine (Sim.mapM_same fun v _ => ?_).eqs
    refine Sim.bind (R := Eq) ?_ fun _ _ h => by subst h; exact rfl
    cases v with
    | scalar s => exact rfl
    | vector v => exact Sim.idx_same _ _
    | matrix m => trivial
  · subst h
    split
    · trivial
    · exact rfl

theorem sim_cleanResults (cfg : Cfg) (l : List (Value F)) : Sim ρ Eq (cleanResults cfg l) (cleanResults cfg l) := by
  unfold cleanResults
  cases l with
  | nil => exact rfl
  | cons r l =>
    simp only
    split
    · exact rfl
    · split
      · refine (sim_sortByKey _ _).bind fun _ _ h => ?_
        subst h
        exact sim_sortByKey _ _
      · exact rfl

/-- The root finder with all names exchanged. -/
def renameFinder (σ τ : Str → Str) (rf : RootFinder F) : RootFinder F :=
  ⟨rf.expressions.map (rename σ τ), rf.combinations, renameCtx σ τ rf.context, rf.searchVarsNames.map σ⟩

include hσ in
theorem sim_findRoots (h : Renames σ τ ev ev') (cfg : Cfg) (rf : RootFinder F) :
    Sim ρ Eq (rf.findRoots cfg ev) ((renameFinder σ τ rf).findRoots cfg ev') := by
  unfold RootFinder.findRoots
  show Sim ρ Eq (findRootsLoop cfg ev rf rf.combinations) (findRootsLoop cfg ev' (renameFinder σ τ rf) rf.combinations)
  generalize rf.combinations = cs
  induction cs with
  | nil => exact rfl
  | cons i cs ih =>
    unfold findRootsLoop
    have hsp := splitExprs_map (rename σ τ) i 0 [] rf.expressions ρ
    refine hsp.bind fun p q hpq => ?_
    subst hpq
    simp only
    generalize startValues = sv
    refine (sim_solveLoop0 hσ h cfg p.1 p.2 rf.searchVarsNames sv rf.context []).bind fun _ _ h => ?_
    subst h
    refine (sim_cleanResults _ _).bind fun _ _ h => ?_
    subst h
    split
    · exact rfl
    · exact ih

theorem isOperation_rename (e : AST F) : (rename σ τ e).isOperation = e.isOperation := by
  cases e <;> rfl

include hσ in
theorem sim_new (h : Renames σ τ ev ev') (es : List (AST F)) (c : Context F) (names : List Str) :
    Sim ρ (fun a b => b = renameFinder σ τ a) (RootFinder.new ev es c names)
      (RootFinder.new ev' (es.map (rename σ τ)) (renameCtx σ τ c) (names.map σ)) := by
  unfold RootFinder.new
  have h1 : (es.map (rename σ τ)).any (fun e => !e.isOperation) = es.any fun e => !e.isOperation := by
    rw [List.any_map]
    congr 1
    funext e
    simp [isOperation_rename]
  have h2 : ((names.map σ).any fun i => ((renameCtx σ τ c).vars.map (·.name)).contains i) =
      names.any fun i => (c.vars.map (·.name)).contains i := by
    rw [List.any_map]
    congr 1
    funext n
    have : (renameCtx σ τ c).vars.map (·.name) = (c.vars.map (·.name)).map σ := by
      simp only [renameCtx, List.map_map]
      rfl
    rw [this, Bool.eq_iff_iff, Function.comp, List.contains_iff_mem, List.contains_iff_mem, List.mem_map_of_injective hσ]
  rw [List.length_map, List.length_map, h1, h2]
  split
  · exact rfl
  split
  · exact rfl
  split
  · exact rfl
  split
  · exact rfl
  simp only
  rw [foldl_addVar_rename hσ, foldl_removeVar_rename hσ]
  refine (Sim.idx_map es (rename σ τ) 0).bind fun e e' he => ?_
  subst he
  refine (h e _).bind fun r r' hr => ?_
  subst hr
  refine (Sim.unwrap _).bind fun v v' hv => ?_
  subst hv
  cases v with
  | vector v => exact rfl
  | matrix v => exact rfl
  | scalar v => exact rfl

include hσ in
theorem sim_solveEquations (h : Renames σ τ ev ev') (cfg : Cfg) (es : List (AST F × AST F)) (c : Context F) (names : List Str) :
    Sim ρ Eq (solveEquations cfg ev es c names)
      (solveEquations cfg ev' (renameEqs σ τ es) (renameCtx σ τ c) (names.map σ)) := by
  unfold solveEquations
  have h1 : (renameEqs σ τ es).map (fun i => AST.simple .sub i.1 i.2) =
      (es.map fun i => AST.simple .sub i.1 i.2).map (rename σ τ) := by
    rw [renameEqs_eq, List.map_map, List.map_map]
    rfl
  simp only
  rw [h1]
  refine (sim_new hσ h _ c names).bind fun rf rf' hrf => ?_
  subst hrf
  exact sim_findRoots hσ h cfg rf

/-! ### Evaluation -/

theorem sim_applyOp (op : SimpleOp) (i j : Value F) : Sim ρ Eq (applyOp op i j) (applyOp op i j) := by
  have one : ∀ x : Out String (Value F), Sim ρ Eq (liftMath x >>= fun v => (.ok [v] : Out EvalError (List (Value F))))
      (liftMath x >>= fun v => .ok [v]) := fun x => (sim_lift x).bind fun _ _ h => by subst h; exact rfl
  cases op <;> first | exact one _ | exact rfl | skip
  exact (sim_lift _).bind fun _ _ h => (sim_lift _).bind fun _ _ h' => by subst h; subst h'; exact rfl

theorem sim_applyAll (op : SimpleOp) (lv rv : List (Value F)) : Sim ρ Eq (applyAll op lv rv) (applyAll op lv rv) := by
  unfold applyAll
  refine Sim.bind (R := Eq) (Sim.mapM_same fun i _ => ?_).eqs fun _ _ h => by subst h; exact rfl
  exact Sim.bind (R := Eq) (Sim.mapM_same fun j _ => sim_applyOp op i j).eqs fun _ _ h => by subst h; exact rfl

theorem sim_allScalars (e : EvalError) (he : renameErr σ τ e = e) (vs : List (Value F)) : Sim ρ Eq (allScalars e vs) (allScalars e vs) := by
  unfold allScalars
  refine (Sim.mapM_same fun v _ => ?_).eqs
  cases v.getScalar with
  | some s => exact rfl
  | none => exact he.symm

include hσ hτ in
theorem sim_evalRec (h0 : τ [] = []) (cfg : Cfg) (n : Nat) : ∀ (b : AST F) (c : Context F) (w : Str),
    Sim ρ Eq (evalRec cfg n b c w) (evalRec cfg n (rename σ τ b) (renameCtx σ τ c) (τ w)) := by
  induction n with
  | zero => intros; trivial
  | succ n ih =>
    intro b c w
    have hev : Renames σ τ (fun (a : AST F) c => evalRec cfg n a c []) (fun a c => evalRec cfg n a c []) := by
      intro a c
      have := ih a c []
      rwa [h0] at this
    rw [evalRec.eq_def, evalRec.eq_def]
    cases b with
    | scalar s => exact rfl
    | vector v =>
      simp only [rename, renameAll_eq]
      refine Sim.bind (R := Eq) (Sim.mapM_map fun a _ => ?_).eqs fun _ _ h => by subst h; exact rfl
      exact (ih a c w).bind fun _ _ h => by subst h; exact sim_allScalars _ rfl _
    | matrix m =>
      simp only [rename, renameRows_eq]
      refine Sim.bind (R := Eq) (Sim.mapM_map fun r _ => ?_).eqs fun _ _ h => by subst h; exact rfl
      refine (Sim.mapM_map fun a _ => ?_).eqs
      exact (ih a c w).bind fun _ _ h => by subst h; exact sim_allScalars _ rfl _
    | list l =>
      simp only [rename, renameAll_eq]
      exact Sim.bind (R := Eq) (Sim.mapM_map fun a _ => ih a c w).eqs fun _ _ h => by subst h; exact rfl
    | «variable» v =>
      simp only [rename]
      rw [findVar_rename hσ]
      cases c.findVar v with
      | none => exact rfl
      | some vs => exact rfl
    | function name inputs =>
      simp only [rename, renameAll_eq]
      by_cases hw : w = name
      · rw [if_pos hw, if_pos (by rw [hw])]; exact rfl
      · rw [if_neg hw, if_neg fun h => hw (hτ h), findFun_rename hτ]
        cases c.findFun name with
        | none => exact rfl
        | some f =>
          simp only [Option.map_some, renameFun, List.length_map]
          split
          · exact rfl
          · refine Sim.bind (R := Eq) (Sim.mapM_map fun a _ => ih a c w).eqs fun _ _ h => ?_
            subst h
            refine Sim.bind (R := Eq) (Sim.mapM_same fun p _ => ?_).eqs fun _ _ h => by subst h; exact rfl
            have := ih f.ast ⟨callVars f.inputs p c.vars, c.funs⟩ name
            rw [show (renameCtx σ τ c).vars = c.vars.map (renameVar σ) from rfl, callVars_rename hσ]
            exact this
    | simple op l r =>
      simp only [rename]
      refine (ih l c w).bind fun _ _ h => (ih r c w).bind fun _ _ h' => ?_
      subst h; subst h'
      exact sim_applyAll op _ _
    | integral e x lo hi =>
      simp only [rename]
      refine (ih lo c w).bind fun _ _ h => (ih hi c w).bind fun _ _ h' => ?_
      subst h; subst h'
      refine Sim.bind (R := Eq) (Sim.mapM_same fun i _ => ?_).eqs fun _ _ h => by subst h; exact rfl
      refine Sim.bind (R := Eq) (Sim.mapM_same fun j _ => ?_).eqs fun _ _ h => by subst h; exact rfl
      exact sim_integral hσ hev cfg n e x i j c
    | derivative e x a =>
      simp only [rename]
      refine (ih a c w).bind fun _ _ h => ?_
      subst h
      refine Sim.bind (R := Eq) (Sim.mapM_same fun i _ => ?_).eqs fun _ _ h => by subst h; exact rfl
      exact sim_derivative hσ hev cfg e x i c
    | equation es vs =>
      simp only [rename]
      exact sim_solveEquations hσ hev cfg es c vs

end
end MUL
