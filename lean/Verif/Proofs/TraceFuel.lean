import Verif.Model.Trace
import Verif.Proofs.Trace
import Verif.Proofs.EvalFuel
/-!
# Giving the evaluator more steps never changes the outcome and the output of a finished evaluation
(the lemmas of `EvalFuel.lean` with the output)
-/

set_option linter.unusedSectionVars false

namespace MUL
open Out

/-- The first call timed out, or both calls print and return the same. -/
def LeT {L ε α : Type} (x y : Tr L ε α) : Prop := x.res = .timeout ∨ x = y

theorem LeT.refl {L ε α : Type} (x : Tr L ε α) : LeT x x := Or.inr rfl

theorem LeT.bind {L ε α β : Type} {x y : Tr L ε α} {f g : α → Tr L ε β} (h : LeT x y) (hf : ∀ a, LeT (f a) (g a)) :
    LeT (x >>= f) (y >>= g) := by
  rcases h with h | rfl
  · left
    rw [Tr.res_bind, h]
    rfl
  · cases hx : x.res with
    | ok a =>
      rcases hf a with h' | h'
      · left
        rw [Tr.res_bind, hx]
        exact h'
      · right
        show Tr.bind x f = Tr.bind x g
        unfold Tr.bind
        rw [hx]
        dsimp only
        rw [h']
    | err e => right; show Tr.bind x f = Tr.bind x g; unfold Tr.bind; rw [hx]
    | panic => right; show Tr.bind x f = Tr.bind x g; unfold Tr.bind; rw [hx]
    | timeout => right; show Tr.bind x f = Tr.bind x g; unfold Tr.bind; rw [hx]

theorem LeT.mapM {L ε α β : Type} {f g : α → Tr L ε β} (l : List α) (h : ∀ a ∈ l, LeT (f a) (g a)) :
    LeT (Tr.mapM f l) (Tr.mapM g l) := by
  induction l with
  | nil => exact LeT.refl _
  | cons a l ih => exact LeT.bind (h a (by simp)) fun _ => LeT.bind (ih fun b hb => h b (by simp [hb])) fun _ => LeT.refl _

section
variable {F : Type} [FNum F]

/-- Pointwise approximation of evaluators. -/
def EvLeT (ev ev' : EvaluatorT F) : Prop := ∀ a c, LeT (ev a c) (ev' a c)

theorem LeT.ite {L ε α : Type} {p : Prop} [Decidable p] {x y x' y' : Tr L ε α} (h : LeT x x') (h' : LeT y y') :
    LeT (if p then x else y) (if p then x' else y') := by
  split <;> assumption

theorem integralLoopT_le {ev ev' : EvaluatorT F} (h : EvLeT ev ev') (expr : AST F) (x : Str)
    (vars : List (Variable F)) (funs : List (Function F)) (ub dx : F) {n m : Nat} (hnm : n ≤ m) (b : F)
    (sums : List (Value F)) :
    LeT (integralLoopT ev expr x vars funs ub dx n b sums) (integralLoopT ev' expr x vars funs ub dx m b sums) := by
  induction n generalizing m b sums with
  | zero =>
    unfold integralLoopT
    split
    · exact Or.inl rfl
    · right
      cases m <;> simp_all [integralLoopT]
  | succ n ih =>
    obtain ⟨m, rfl⟩ : ∃ k, m = k + 1 := ⟨m - 1, by omega⟩
    unfold integralLoopT
    refine LeT.ite ?_ (LeT.refl _)
    refine LeT.bind (h _ _) fun evals => LeT.bind (LeT.refl _) fun s => ih (by omega) _ _

theorem calculateIntegralT_le (cfg : Cfg) {ev ev' : EvaluatorT F} (h : EvLeT ev ev') {n m : Nat} (hnm : n ≤ m)
    (expr : AST F) (x : Str) (l u : Value F) (ctx : Context F) :
    LeT (calculateIntegralT cfg ev n expr x l u ctx) (calculateIntegralT cfg ev' m expr x l u ctx) := by
  unfold calculateIntegralT
  cases l <;> cases u <;> try exact LeT.refl _
  refine LeT.ite (LeT.refl _) ?_
  exact LeT.bind (integralLoopT_le h _ _ _ _ _ _ hnm _ _) fun _ => LeT.refl _

theorem calculateDerivativeT_le (cfg : Cfg) {ev ev' : EvaluatorT F} (h : EvLeT ev ev')
    (expr : AST F) (x : Str) (at_ : Value F) (ctx : Context F) :
    LeT (calculateDerivativeT cfg ev expr x at_ ctx) (calculateDerivativeT cfg ev' expr x at_ ctx) := by
  unfold calculateDerivativeT
  cases at_ <;> try exact LeT.refl _
  refine LeT.bind (h _ _) fun fxs => LeT.bind (h _ _) fun fxhs => LeT.ite (LeT.refl _) ?_
  refine LeT.bind (LeT.mapM _ fun i _ => ?_) fun _ => LeT.refl _
  exact LeT.bind (LeT.refl _) fun _ => LeT.bind (LeT.refl _) fun _ => h _ _

theorem calculateDerivativeNewtonT_le (cfg : Cfg) {ev ev' : EvaluatorT F} (h : EvLeT ev ev')
    (expr : AST F) (x : Str) (at_ : Value F) (fx : Option (Value F)) (ctx : Context F) :
    LeT (calculateDerivativeNewtonT cfg ev expr x at_ fx ctx)
      (calculateDerivativeNewtonT cfg ev' expr x at_ fx ctx) := by
  unfold calculateDerivativeNewtonT
  cases at_ <;> try exact LeT.refl _
  refine LeT.bind ?_ fun p => ?_
  · cases fx with
    | some fx => exact LeT.refl _
    | none => exact LeT.bind (h _ _) fun _ => LeT.refl _
  · obtain ⟨fx, ctx⟩ := p
    exact LeT.bind (h _ _) fun _ => LeT.bind (LeT.refl _) fun _ => LeT.bind (h _ _) fun _ => LeT.refl _

theorem jacobiAndGaussT_le (cfg : Cfg) {ev ev' : EvaluatorT F} (h : EvLeT ev ev') (es : List (AST F))
    (x : List (Variable F)) (ctx : Context F) (fx : List F) :
    LeT (jacobiAndGaussT cfg ev es x ctx fx) (jacobiAndGaussT cfg ev' es x ctx fx) := by
  unfold jacobiAndGaussT
  refine LeT.bind (LeT.mapM _ fun i _ => LeT.mapM _ fun j _ => ?_) fun _ => LeT.refl _
  refine LeT.bind (LeT.refl _) fun _ => LeT.bind (LeT.refl _) fun _ => LeT.bind (LeT.refl _) fun _ =>
    LeT.bind (LeT.refl _) fun _ => LeT.bind (calculateDerivativeNewtonT_le cfg h _ _ _ _ _) fun _ => LeT.refl _

theorem evalScalarsT_le {ev ev' : EvaluatorT F} (h : EvLeT ev ev') (es : List (AST F)) (ctx : Context F) :
    LeT (evalScalarsT ev es ctx) (evalScalarsT ev' es ctx) :=
  LeT.mapM _ fun _ _ => LeT.bind (h _ _) fun _ => LeT.refl _

/-- Either the first call timed out, or both calls agree completely. -/
theorem newtonT_le (cfg : Cfg) {ev ev' : EvaluatorT F} (h : EvLeT ev ev') (ss cs : List (AST F))
    (x : List (Variable F)) (ctx : Context F) :
    (newtonT cfg ev ss cs x ctx).1.res = .timeout ∨ newtonT cfg ev ss cs x ctx = newtonT cfg ev' ss cs x ctx := by
  unfold newtonT
  dsimp only
  rcases evalScalarsT_le h ss (addVars ctx x) with h1 | h1
  · rw [h1]; exact Or.inl rfl
  · rw [← h1]
    cases hfx : (evalScalarsT ev ss (addVars ctx x)).res with
    | err e => exact Or.inr rfl
    | panic => exact Or.inr rfl
    | timeout => exact Or.inr rfl
    | ok fx =>
      dsimp only
      split
      · rcases evalScalarsT_le h cs (addVars (removeVars (addVars ctx x) x) x) with h2 | h2
        · rw [h2]; exact Or.inl rfl
        · rw [← h2]; exact Or.inr rfl
      · rcases jacobiAndGaussT_le cfg h ss x (removeVars (addVars ctx x) x) fx with h2 | h2
        · rw [h2]; exact Or.inl rfl
        · rw [← h2]; exact Or.inr rfl

theorem solveLoop1T_le (cfg : Cfg) {ev ev' : EvaluatorT F} (h : EvLeT ev ev') (ss cs : List (AST F)) (n : Nat)
    (x : List (Variable F)) (ctx : Context F) :
    LeT (solveLoop1T cfg ev ss cs n x ctx) (solveLoop1T cfg ev' ss cs n x ctx) := by
  induction n generalizing x ctx with
  | zero => exact LeT.refl _
  | succ n ih =>
    unfold solveLoop1T
    rcases newtonT_le cfg h ss cs x ctx with h1 | h1
    · left
      revert h1
      rcases newtonT cfg ev ss cs x ctx with ⟨⟨o, a⟩, b⟩
      intro h1; cases h1; rfl
    · rw [← h1]
      rcases newtonT cfg ev ss cs x ctx with ⟨⟨o, a⟩, b⟩
      · cases a with
        | ok r => cases r with
          | nextX x' =>
            dsimp only
            rcases ih x' b with h' | h'
            · exact Or.inl h'
            · rw [h']; exact LeT.refl _
          | finishedX x' => exact LeT.refl _
        | err e => cases e <;> exact LeT.refl _
        | panic => exact LeT.refl _
        | timeout => exact LeT.refl _

theorem solveLoop0T_le (cfg : Cfg) {ev ev' : EvaluatorT F} (h : EvLeT ev ev') (ss cs : List (AST F))
    (names : List Str) (js : List Int) (ctx : Context F) (results : List (Value F)) :
    LeT (solveLoop0T cfg ev ss cs names js ctx results) (solveLoop0T cfg ev' ss cs names js ctx results) := by
  induction js generalizing ctx results with
  | nil => exact LeT.refl _
  | cons j js ih =>
    unfold solveLoop0T
    refine LeT.bind (solveLoop1T_le cfg h _ _ _ _ _) fun r => ?_
    exact LeT.ite (LeT.refl _) (ih _ _)

theorem findRootsLoopT_le (cfg : Cfg) {ev ev' : EvaluatorT F} (h : EvLeT ev ev') (rf : RootFinder F)
    (l : List (List Nat)) : LeT (findRootsLoopT cfg ev rf l) (findRootsLoopT cfg ev' rf l) := by
  induction l with
  | nil => exact LeT.refl _
  | cons i l ih =>
    unfold findRootsLoopT
    refine LeT.bind (LeT.refl _) fun p => ?_
    exact LeT.bind (solveLoop0T_le cfg h _ _ _ _ _ _) fun _ => LeT.bind (LeT.refl _) fun _ =>
      LeT.ite (LeT.refl _) ih

theorem rootFinderNewT_le {ev ev' : EvaluatorT F} (h : EvLeT ev ev') (es : List (AST F)) (ctx : Context F)
    (names : List Str) : LeT (RootFinder.newT ev es ctx names) (RootFinder.newT ev' es ctx names) := by
  unfold RootFinder.newT
  refine LeT.ite (LeT.refl _) (LeT.ite (LeT.refl _) (LeT.ite (LeT.refl _) (LeT.ite (LeT.refl _) ?_)))
  exact LeT.bind (LeT.refl _) fun _ => LeT.bind (h _ _) fun _ => LeT.refl _

theorem solveEquationsT_le (cfg : Cfg) {ev ev' : EvaluatorT F} (h : EvLeT ev ev') (eqs : List (AST F × AST F))
    (ctx : Context F) (names : List Str) :
    LeT (solveEquationsT cfg ev eqs ctx names) (solveEquationsT cfg ev' eqs ctx names) := by
  unfold solveEquationsT
  exact LeT.bind (rootFinderNewT_le h _ _ _) fun rf => findRootsLoopT_le cfg h rf _

theorem evalRecT_le (cfg : Cfg) {n m : Nat} (hnm : n ≤ m) (b : AST F) (ctx : Context F) (lastFn : Str) :
    LeT (evalRecT cfg n b ctx lastFn) (evalRecT cfg m b ctx lastFn) := by
  induction n generalizing m b ctx lastFn with
  | zero => exact Or.inl (by simp [evalRecT])
  | succ n ih =>
    obtain ⟨m, rfl⟩ : ∃ k, m = k + 1 := ⟨m - 1, by omega⟩
    have hle : n ≤ m := by omega
    have hev : EvLeT (fun a c => evalRecT (F := F) cfg n a c []) (fun a c => evalRecT cfg m a c []) :=
      fun a c => ih hle a c []
    cases b with
    | scalar s => simp only [evalRecT]; exact LeT.refl _
    | vector v =>
      simp only [evalRecT]
      exact LeT.bind (LeT.mapM _ fun i _ => LeT.bind (ih hle _ _ _) fun _ => LeT.refl _) fun _ => LeT.refl _
    | matrix v =>
      simp only [evalRecT]
      exact LeT.bind (LeT.mapM _ fun i _ => LeT.mapM _ fun j _ => LeT.bind (ih hle _ _ _) fun _ => LeT.refl _)
        fun _ => LeT.refl _
    | list l =>
      simp only [evalRecT]
      exact LeT.bind (LeT.mapM _ fun i _ => ih hle _ _ _) fun _ => LeT.refl _
    | «variable» v => simp only [evalRecT]; exact LeT.refl _
    | function name inputs =>
      simp only [evalRecT]
      refine LeT.ite (LeT.refl _) ?_
      cases ctx.findFun name with
      | none => exact LeT.refl _
      | some f =>
        refine LeT.ite (LeT.refl _) ?_
        exact LeT.bind (LeT.mapM _ fun i _ => ih hle _ _ _) fun _ =>
          LeT.bind (LeT.mapM _ fun p _ => ih hle _ _ _) fun _ => LeT.refl _
    | simple op l r =>
      simp only [evalRecT]
      exact LeT.bind (ih hle _ _ _) fun _ => LeT.bind (ih hle _ _ _) fun _ => LeT.refl _
    | integral e x l u =>
      simp only [evalRecT]
      exact LeT.bind (ih hle _ _ _) fun _ => LeT.bind (ih hle _ _ _) fun _ =>
        LeT.bind (LeT.mapM _ fun i _ => LeT.bind (LeT.mapM _ fun j _ =>
          calculateIntegralT_le cfg hev hle _ _ _ _ _) fun _ => LeT.refl _) fun _ => LeT.refl _
    | derivative e x a =>
      simp only [evalRecT]
      exact LeT.bind (ih hle _ _ _) fun _ => LeT.bind (LeT.mapM _ fun i _ =>
          calculateDerivativeT_le cfg hev _ _ _ _) fun _ => LeT.refl _
    | equation eqs sv =>
      simp only [evalRecT]
      exact solveEquationsT_le cfg hev _ _ _

end
end MUL
