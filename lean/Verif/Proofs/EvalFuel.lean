import Verif.Model.Eval
import Verif.Proofs.OutLemmas
/-!
# Giving the evaluator more steps never changes a finished outcome
-/

namespace MUL
open Out

section
variable {F : Type} [FNum F]

/-- Pointwise approximation of evaluators. -/
def EvLe (ev ev' : Evaluator F) : Prop := ∀ a c, Le (ev a c) (ev' a c)

theorem Le.ite {ε α : Type} {p : Prop} [Decidable p] {x y x' y' : Out ε α} (h : Le x x') (h' : Le y y') :
    Le (if p then x else y) (if p then x' else y') := by
  split <;> assumption

theorem integralLoop_le {ev ev' : Evaluator F} (h : EvLe ev ev') (expr : AST F) (x : Str)
    (vars : List (Variable F)) (funs : List (Function F)) (ub dx : F) {n m : Nat} (hnm : n ≤ m) (b : F)
    (sums : List (Value F)) :
    Le (integralLoop ev expr x vars funs ub dx n b sums) (integralLoop ev' expr x vars funs ub dx m b sums) := by
  induction n generalizing m b sums with
  | zero =>
    unfold integralLoop
    split
    · exact Or.inl rfl
    · right
      cases m <;> simp_all [integralLoop]
  | succ n ih =>
    obtain ⟨m, rfl⟩ : ∃ k, m = k + 1 := ⟨m - 1, by omega⟩
    unfold integralLoop
    refine Le.ite ?_ (Le.refl _)
    refine Le.bind (h _ _) fun evals => Le.bind (Le.refl _) fun s => ih (by omega) _ _

theorem calculateIntegral_le (cfg : Cfg) {ev ev' : Evaluator F} (h : EvLe ev ev') {n m : Nat} (hnm : n ≤ m)
    (expr : AST F) (x : Str) (l u : Value F) (ctx : Context F) :
    Le (calculateIntegral cfg ev n expr x l u ctx) (calculateIntegral cfg ev' m expr x l u ctx) := by
  unfold calculateIntegral
  cases l <;> cases u <;> try exact Le.refl _
  refine Le.ite (Le.refl _) ?_
  exact Le.bind (integralLoop_le h _ _ _ _ _ _ hnm _ _) fun _ => Le.refl _

theorem calculateDerivative_le (cfg : Cfg) {ev ev' : Evaluator F} (h : EvLe ev ev')
    (expr : AST F) (x : Str) (at_ : Value F) (ctx : Context F) :
    Le (calculateDerivative cfg ev expr x at_ ctx) (calculateDerivative cfg ev' expr x at_ ctx) := by
  unfold calculateDerivative
  cases at_ <;> try exact Le.refl _
  refine Le.bind (h _ _) fun fxs => Le.bind (h _ _) fun fxhs => Le.ite (Le.refl _) ?_
  refine Le.bind (Le.mapM _ fun i _ => ?_) fun _ => Le.refl _
  exact Le.bind (Le.refl _) fun _ => Le.bind (Le.refl _) fun _ => h _ _

theorem calculateDerivativeNewton_le (cfg : Cfg) {ev ev' : Evaluator F} (h : EvLe ev ev')
    (expr : AST F) (x : Str) (at_ : Value F) (fx : Option (Value F)) (ctx : Context F) :
    Le (calculateDerivativeNewton cfg ev expr x at_ fx ctx)
      (calculateDerivativeNewton cfg ev' expr x at_ fx ctx) := by
  unfold calculateDerivativeNewton
  cases at_ <;> try exact Le.refl _
  refine Le.bind ?_ fun p => ?_
  · cases fx with
    | some fx => exact Le.refl _
    | none => exact Le.bind (h _ _) fun _ => Le.refl _
  · obtain ⟨fx, ctx⟩ := p
    exact Le.bind (h _ _) fun _ => Le.bind (Le.refl _) fun _ => Le.bind (h _ _) fun _ => Le.refl _

theorem jacobiAndGauss_le (cfg : Cfg) {ev ev' : Evaluator F} (h : EvLe ev ev') (es : List (AST F))
    (x : List (Variable F)) (ctx : Context F) (fx : List F) :
    Le (jacobiAndGauss cfg ev es x ctx fx) (jacobiAndGauss cfg ev' es x ctx fx) := by
  unfold jacobiAndGauss
  refine Le.bind (Le.mapM _ fun i _ => Le.mapM _ fun j _ => ?_) fun _ => Le.refl _
  refine Le.bind (Le.refl _) fun _ => Le.bind (Le.refl _) fun _ => Le.bind (Le.refl _) fun _ =>
    Le.bind (Le.refl _) fun _ => Le.bind (calculateDerivativeNewton_le cfg h _ _ _ _ _) fun _ => Le.refl _

theorem evalScalars_le {ev ev' : Evaluator F} (h : EvLe ev ev') (es : List (AST F)) (ctx : Context F) :
    Le (evalScalars ev es ctx) (evalScalars ev' es ctx) :=
  Le.mapM _ fun _ _ => Le.bind (h _ _) fun _ => Le.refl _

/-- Either the first call timed out, or both calls agree completely. -/
theorem newton_le (cfg : Cfg) {ev ev' : Evaluator F} (h : EvLe ev ev') (ss cs : List (AST F))
    (x : List (Variable F)) (ctx : Context F) :
    (newton cfg ev ss cs x ctx).1 = .timeout ∨ newton cfg ev ss cs x ctx = newton cfg ev' ss cs x ctx := by
  unfold newton
  dsimp only
  rcases evalScalars_le h ss (addVars ctx x) with h1 | h1
  · rw [h1]; exact Or.inl rfl
  · rw [← h1]
    cases hfx : evalScalars ev ss (addVars ctx x) with
    | err e => exact Or.inr rfl
    | panic => exact Or.inr rfl
    | timeout => exact Or.inr rfl
    | ok fx =>
      dsimp only
      split
      · rcases evalScalars_le h cs (addVars (removeVars (addVars ctx x) x) x) with h2 | h2
        · rw [h2]; exact Or.inl rfl
        · rw [← h2]; exact Or.inr rfl
      · rcases jacobiAndGauss_le cfg h ss x (removeVars (addVars ctx x) x) fx with h2 | h2
        · rw [h2]; exact Or.inl rfl
        · rw [← h2]; exact Or.inr rfl

theorem solveLoop1_le (cfg : Cfg) {ev ev' : Evaluator F} (h : EvLe ev ev') (ss cs : List (AST F)) (n : Nat)
    (x : List (Variable F)) (ctx : Context F) :
    Le (solveLoop1 cfg ev ss cs n x ctx) (solveLoop1 cfg ev' ss cs n x ctx) := by
  induction n generalizing x ctx with
  | zero => exact Le.refl _
  | succ n ih =>
    unfold solveLoop1
    rcases newton_le cfg h ss cs x ctx with h1 | h1
    · left
      revert h1
      cases newton cfg ev ss cs x ctx with
      | mk a b => intro h1; cases h1; rfl
    · rw [← h1]
      cases newton cfg ev ss cs x ctx with
      | mk a b =>
        cases a with
        | ok r => cases r with
          | nextX x' => exact ih _ _
          | finishedX x' => exact Le.refl _
        | err e => cases e <;> exact Le.refl _
        | panic => exact Le.refl _
        | timeout => exact Le.refl _

theorem solveLoop0_le (cfg : Cfg) {ev ev' : Evaluator F} (h : EvLe ev ev') (ss cs : List (AST F))
    (names : List Str) (js : List Int) (ctx : Context F) (results : List (Value F)) :
    Le (solveLoop0 cfg ev ss cs names js ctx results) (solveLoop0 cfg ev' ss cs names js ctx results) := by
  induction js generalizing ctx results with
  | nil => exact Le.refl _
  | cons j js ih =>
    unfold solveLoop0
    refine Le.bind (solveLoop1_le cfg h _ _ _ _ _) fun r => ?_
    exact Le.ite (Le.refl _) (ih _ _)

theorem findRootsLoop_le (cfg : Cfg) {ev ev' : Evaluator F} (h : EvLe ev ev') (rf : RootFinder F)
    (l : List (List Nat)) : Le (findRootsLoop cfg ev rf l) (findRootsLoop cfg ev' rf l) := by
  induction l with
  | nil => exact Le.refl _
  | cons i l ih =>
    unfold findRootsLoop
    refine Le.bind (Le.refl _) fun p => ?_
    exact Le.bind (solveLoop0_le cfg h _ _ _ _ _ _) fun _ => Le.bind (Le.refl _) fun _ =>
      Le.ite (Le.refl _) ih

theorem rootFinderNew_le {ev ev' : Evaluator F} (h : EvLe ev ev') (es : List (AST F)) (ctx : Context F)
    (names : List Str) : Le (RootFinder.new ev es ctx names) (RootFinder.new ev' es ctx names) := by
  unfold RootFinder.new
  refine Le.ite (Le.refl _) (Le.ite (Le.refl _) (Le.ite (Le.refl _) (Le.ite (Le.refl _) ?_)))
  exact Le.bind (Le.refl _) fun _ => Le.bind (h _ _) fun _ => Le.refl _

theorem solveEquations_le (cfg : Cfg) {ev ev' : Evaluator F} (h : EvLe ev ev') (eqs : List (AST F × AST F))
    (ctx : Context F) (names : List Str) :
    Le (solveEquations cfg ev eqs ctx names) (solveEquations cfg ev' eqs ctx names) := by
  unfold solveEquations RootFinder.findRoots
  exact Le.bind (rootFinderNew_le h _ _ _) fun rf => findRootsLoop_le cfg h rf _

theorem evalRec_le (cfg : Cfg) {n m : Nat} (hnm : n ≤ m) (b : AST F) (ctx : Context F) (lastFn : Str) :
    Le (evalRec cfg n b ctx lastFn) (evalRec cfg m b ctx lastFn) := by
  induction n generalizing m b ctx lastFn with
  | zero => exact Or.inl (by simp [evalRec])
  | succ n ih =>
    obtain ⟨m, rfl⟩ : ∃ k, m = k + 1 := ⟨m - 1, by omega⟩
    have hle : n ≤ m := by omega
    have hev : EvLe (fun a c => evalRec (F := F) cfg n a c []) (fun a c => evalRec cfg m a c []) :=
      fun a c => ih hle a c []
    cases b with
    | scalar s => simp only [evalRec]; exact Le.refl _
    | vector v =>
      simp only [evalRec]
      exact Le.bind (Le.mapM _ fun i _ => Le.bind (ih hle _ _ _) fun _ => Le.refl _) fun _ => Le.refl _
    | matrix v =>
      simp only [evalRec]
      exact Le.bind (Le.mapM _ fun i _ => Le.mapM _ fun j _ => Le.bind (ih hle _ _ _) fun _ => Le.refl _)
        fun _ => Le.refl _
    | list l =>
      simp only [evalRec]
      exact Le.bind (Le.mapM _ fun i _ => ih hle _ _ _) fun _ => Le.refl _
    | «variable» v => simp only [evalRec]; exact Le.refl _
    | function name inputs =>
      simp only [evalRec]
      refine Le.ite (Le.refl _) ?_
      cases ctx.findFun name with
      | none => exact Le.refl _
      | some f =>
        refine Le.ite (Le.refl _) ?_
        exact Le.bind (Le.mapM _ fun i _ => ih hle _ _ _) fun _ =>
          Le.bind (Le.mapM _ fun p _ => ih hle _ _ _) fun _ => Le.refl _
    | simple op l r =>
      simp only [evalRec]
      exact Le.bind (ih hle _ _ _) fun _ => Le.bind (ih hle _ _ _) fun _ => Le.refl _
    | integral e x l u =>
      simp only [evalRec]
      exact Le.bind (ih hle _ _ _) fun _ => Le.bind (ih hle _ _ _) fun _ =>
        Le.bind (Le.mapM _ fun i _ => Le.bind (Le.mapM _ fun j _ =>
          calculateIntegral_le cfg hev hle _ _ _ _ _) fun _ => Le.refl _) fun _ => Le.refl _
    | derivative e x a =>
      simp only [evalRec]
      exact Le.bind (ih hle _ _ _) fun _ => Le.bind (Le.mapM _ fun i _ =>
          calculateDerivative_le cfg hev _ _ _ _) fun _ => Le.refl _
    | equation eqs sv =>
      simp only [evalRec]
      exact solveEquations_le cfg hev _ _ _

end
end MUL
