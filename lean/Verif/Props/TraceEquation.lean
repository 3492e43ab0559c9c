import Verif.Props.Trace
import Verif.Proofs.Newton
import Verif.Spec.TraceEquation
import Verif.Num.RatText
/-!
# C91: what the search for a solution prints
-/

set_option linter.unusedSectionVars false

namespace MUL
open Out Spec

section
variable {F : Type} [FNum F] {cfg : Cfg} {ctx : Context F} {x : Str} {e : AST F}

namespace Tr
variable {L ε α β : Type}

theorem out_bind_quiet (t : Tr L ε α) {f : α → Tr L ε β} (h : ∀ a, Quiet (f a)) : (t >>= f).out = t.out := by
  cases hr : t.res with
  | ok a => rw [bind_ok hr, h a, List.append_nil]
  | err _ => exact bind_stop (by simp [hr])
  | panic => exact bind_stop (by simp [hr])
  | timeout => exact bind_stop (by simp [hr])

theorem lift_ok_bind (a : α) (f : α → Tr L ε β) : ((Tr.lift (.ok a) : Tr L ε α) >>= f) = f a := by
  show Tr.bind _ f = _
  simp [Tr.bind, Tr.lift]

theorem mk_bind (o : List L) (a : α) (f : α → Tr L ε β) : ((⟨o, .ok a⟩ : Tr L ε α) >>= f) = ⟨o ++ (f a).out, (f a).res⟩ := rfl

theorem out_mapM_one (f : α → Tr L ε β) (a : α) : (Tr.mapM f [a]).out = (f a).out := by
  have hb : Tr.mapM f [a] = f a >>= fun b => (⟨[], .ok []⟩ : Tr L ε (List β)) >>= fun bs => ⟨[], .ok (b :: bs)⟩ := rfl
  rw [hb]
  exact out_bind_quiet _ fun _ => rfl

end Tr

theorem quietly_eval (n : Nat) : quietly (fun a c => evalRecT cfg n a c []) = (eval cfg n : Evaluator F) := by
  funext a c
  exact evalRecT_res cfg n a c []

theorem jacobi_out (n : Nat) (hfresh : ∀ v ∈ ctx.vars, v.name ≠ x) (a y : F) {o : List (Line F)} {vs : List (Value F)}
    (h : evalRecT cfg n e (ctx.addVar ⟨x, [.scalar (FArith.add a (stepH F cfg))]⟩) [] = ⟨o, .ok vs⟩) :
    (jacobiAndGaussT cfg (fun a c => evalRecT cfg n a c []) [e] [⟨x, [.scalar a]⟩] ctx [y]).out = o := by
  unfold jacobiAndGaussT
  rw [Tr.out_bind_quiet _ fun _ => Tr.Quiet.bind (Tr.Quiet.lift _) fun _ _ => Tr.Quiet.bind (Tr.Quiet.lift _) fun _ _ => Tr.Quiet.lift _]
  have hr1 : List.range [e].length = [0] := rfl
  have hr2 : List.range [(⟨x, [.scalar a]⟩ : Variable F)].length = [0] := rfl
  rw [hr1, hr2, Tr.out_mapM_one, Tr.out_mapM_one]
  have hoth : (([0] : List Nat).filter fun k => 0 != k).filterMap (fun k => [(⟨x, [.scalar a]⟩ : Variable F)][k]?) = [] := rfl
  dsimp only
  rw [hoth]
  have i1 : (idx [e] 0 : Out EvalError (AST F)) = .ok e := rfl
  have i2 : (idx [(⟨x, [.scalar a]⟩ : Variable F)] 0 : Out EvalError (Variable F)) = .ok ⟨x, [.scalar a]⟩ := rfl
  have i3 : (Out.unwrap ([Value.scalar a] : List (Value F))[0]? : Out EvalError (Value F)) = .ok (.scalar a) := rfl
  have i4 : (idx [y] 0 : Out EvalError F) = .ok y := rfl
  rw [i1, Tr.lift_ok_bind, i2, Tr.lift_ok_bind, i3, Tr.lift_ok_bind, i4, Tr.lift_ok_bind, Tr.out_bind_quiet _ fun _ => Tr.Quiet.lift _]
  unfold calculateDerivativeNewtonT
  dsimp only
  rw [dropVar_fresh hfresh, Tr.lift_ok_bind]
  dsimp only
  rw [show FArith.powi (FArith.ofInt 10) (-(cfg.prec : Int)) = stepH F cfg from rfl, h, Tr.mk_bind]
  show o ++ _ = o
  rw [show (Tr.lift (Out.unwrap vs[0]?) >>= fun fxh => _ : Tr (Line F) EvalError (Value F)).out = [] from
    Tr.Quiet.bind (Tr.Quiet.lift _) fun _ _ => Tr.Quiet.bind (dq_quiet _ _ _ _ _ _) fun _ _ => Tr.Quiet.lift _, List.append_nil]

/-- Evaluations of the expression for all values of the variable: what they print and the first value. -/
def Evaluates (cfg : Cfg) (n : Nat) (ctx : Context F) (x : Str) (e : AST F) (o : F → List (Line F)) (y : F → F) : Prop :=
  ∀ a, ∃ rest, evalRecT cfg n e (ctx.addVar ⟨x, [.scalar a]⟩) [] = ⟨o a, .ok (.scalar (y a) :: rest)⟩

theorem newton_trace (n : Nat) (hfresh : ∀ v ∈ ctx.vars, v.name ≠ x) {o : F → List (Line F)} {y : F → F} (h : Evaluates cfg (n + 4) ctx x e o y) (a : F) :
    newtonT cfg (fun a c => evalRecT cfg (n + 4) a c []) [e] [] [⟨x, [.scalar a]⟩] ctx =
      (⟨o a ++ (if nearZero cfg (y a) then [] else o (FArith.add a (stepH F cfg))),
        if nearZero cfg (y a) then .ok (.finishedX [⟨x, [.scalar a]⟩])
        else if (Value.scalar (stepOf cfg a (y a) (y (FArith.add a (stepH F cfg))))).isInfOrNan then .err .naNOrInf
        else .ok (.nextX [⟨x, [.scalar (stepOf cfg a (y a) (y (FArith.add a (stepH F cfg))))]⟩])⟩, ctx) := by
  obtain ⟨rest, h1⟩ := h a
  obtain ⟨rest', h2⟩ := h (FArith.add a (stepH F cfg))
  have e1 : eval cfg (n + 4) e (ctx.addVar ⟨x, [.scalar a]⟩) = .ok (.scalar (y a) :: rest) := by
    rw [← quietly_eval]; exact congrArg Tr.res h1
  have e2 : eval cfg (n + 4) e (ctx.addVar ⟨x, [.scalar (FArith.add a (stepH F cfg))]⟩) = .ok (.scalar (y (FArith.add a (stepH F cfg))) :: rest') := by
    rw [← quietly_eval]; exact congrArg Tr.res h2
  have hn := newton_one hfresh n a _ _ rest rest' e1 e2
  obtain ⟨hr, hc⟩ := newtonT_res cfg (fun a c => evalRecT cfg (n + 4) a c []) [e] [] [⟨x, [.scalar a]⟩] ctx
  rw [quietly_eval, hn] at hr hc
  have hz : normSmall cfg [y a] = nearZero cfg (y a) := rfl
  rw [hz] at hr
  have hs : evalScalarsT (fun a c => evalRecT cfg (n + 4) a c []) [e] (addVars ctx [⟨x, [.scalar a]⟩]) = ⟨o a, .ok [y a]⟩ := by
    have hb : evalScalarsT (fun a c => evalRecT cfg (n + 4) a c []) [e] (addVars ctx [⟨x, [.scalar a]⟩]) =
      (evalRecT cfg (n + 4) e (ctx.addVar ⟨x, [.scalar a]⟩) [] >>= fun r => (Tr.lift (firstScalar r) : Tr (Line F) EvalError F)) >>= fun b =>
        (⟨[], .ok []⟩ : Tr (Line F) EvalError (List F)) >>= fun bs => ⟨[], .ok (b :: bs)⟩ := rfl
    rw [hb, h1]
    show (⟨(o a ++ []) ++ ([] ++ []), _⟩ : Tr (Line F) EvalError (List F)) = _
    simp only [List.append_nil]
    rfl
  have hrem : removeVars (addVars ctx [⟨x, [.scalar a]⟩]) [⟨x, [.scalar a]⟩] = ctx :=
    ((Inv.refl (by simpa using hfresh) : Inv ctx [x] ctx).addVars_inv rfl).remove_eq rfl
  have ho : (newtonT cfg (fun a c => evalRecT cfg (n + 4) a c []) [e] [] [⟨x, [.scalar a]⟩] ctx).1.out =
      o a ++ (if nearZero cfg (y a) then [] else o (FArith.add a (stepH F cfg))) := by
    unfold newtonT
    dsimp only
    rw [hs]
    dsimp only
    rw [hz, hrem]
    cases hy : nearZero cfg (y a) with
    | true =>
      simp only [if_true]
      rfl
    | false =>
      simp only [Bool.false_eq_true, if_false, jacobi_out (n + 4) hfresh a (y a) h2]
      split
      · rfl
      · rfl
      · rfl
      · split
        · split <;> rfl
        · rfl
        · rfl
        · rfl
  dsimp only at hr hc
  rw [← ho, ← hr]
  exact Prod.ext rfl hc

theorem loop1_trace (n : Nat) (hfresh : ∀ v ∈ ctx.vars, v.name ≠ x) {o : F → List (Line F)} {y : F → F} (h : Evaluates cfg (n + 4) ctx x e o y)
    (k : Nat) (a : F) : ∃ f, solveLoop1T cfg (fun a c => evalRecT cfg (n + 4) a c []) [e] [] k [⟨x, [.scalar a]⟩] ctx =
      ⟨(visited cfg y k a).flatMap o, .ok ⟨f, false, ctx⟩⟩ := by
  induction k generalizing a with
  | zero => exact ⟨none, rfl⟩
  | succ k ih =>
    unfold solveLoop1T visited
    rw [newton_trace n hfresh h a]
    dsimp only
    cases hy : nearZero cfg (y a) with
    | true =>
      refine ⟨some (.scalar a), ?_⟩
      simp only [if_true, List.append_nil, List.flatMap_cons, List.flatMap_nil]
      rfl
    | false =>
      simp only [Bool.false_eq_true, if_false]
      have hb : (Value.scalar (stepOf cfg a (y a) (y (FArith.add a (stepH F cfg))))).isInfOrNan =
        (FArith.isInf (stepOf cfg a (y a) (y (FArith.add a (stepH F cfg)))) || FArith.isNaN (stepOf cfg a (y a) (y (FArith.add a (stepH F cfg))))) := rfl
      rw [hb]
      change ∃ f, _ = (⟨(a :: FArith.add a (stepH F cfg) :: if (FArith.isInf (stepOf cfg a (y a) (y (FArith.add a (stepH F cfg)))) ||
        FArith.isNaN (stepOf cfg a (y a) (y (FArith.add a (stepH F cfg))))) = true then [] else
          visited cfg y k (stepOf cfg a (y a) (y (FArith.add a (stepH F cfg))))).flatMap o, _⟩ : Tr _ _ _)
      generalize stepOf cfg a (y a) (y (FArith.add a (stepH F cfg))) = b
      cases FArith.isInf b || FArith.isNaN b with
      | true =>
        refine ⟨none, ?_⟩
        simp
      | false =>
        obtain ⟨f, hf⟩ := ih b
        refine ⟨f, ?_⟩
        simp [hf]

theorem loop0_trace (n : Nat) (hfresh : ∀ v ∈ ctx.vars, v.name ≠ x) {o : F → List (Line F)} {y : F → F} (h : Evaluates cfg (n + 4) ctx x e o y)
    (js : List Int) (acc : List (Value F)) : ∃ rs, solveLoop0T cfg (fun a c => evalRecT cfg (n + 4) a c []) [e] [] [x] js ctx acc =
      ⟨js.flatMap fun j => (visited cfg y 1000 (FArith.ofInt j)).flatMap o, .ok rs⟩ := by
  induction js generalizing acc with
  | nil => exact ⟨acc, rfl⟩
  | cons j js ih =>
    obtain ⟨f, hf⟩ := loop1_trace n hfresh h 1000 (FArith.ofInt j)
    have hstep : solveLoop0T cfg (fun a c => evalRecT cfg (n + 4) a c []) [e] [] [x] (j :: js) ctx acc =
      solveLoop1T cfg (fun a c => evalRecT cfg (n + 4) a c []) [e] [] 1000 [⟨x, [.scalar (FArith.ofInt j)]⟩] ctx >>= fun r =>
        if r.stop then .lift (.ok (match r.found with | some v => acc ++ [v] | none => acc))
        else solveLoop0T cfg (fun a c => evalRecT cfg (n + 4) a c []) [e] [] [x] js r.ctx (match r.found with | some v => acc ++ [v] | none => acc) := rfl
    rw [hstep, hf, Tr.mk_bind]
    simp only [Bool.false_eq_true, if_false]
    generalize (match f with | some v => acc ++ [v] | none => acc) = acc'
    obtain ⟨rs, hrs⟩ := ih acc'
    refine ⟨rs, ?_⟩
    rw [hrs]
    simp

/-- **C91.** An equation in one unknown prints, one after the other, what its sides print at 8.21785 and at the points visited by the searches
from -1000, -999, …, 999, of at most 1000 steps each: every line of every evaluation, whether or not the search succeeds. -/
theorem C91_equation (cfg : Cfg) (n : Nat) (ctx : Context F) (x : Str) (l r : AST F) (hfresh : ∀ v ∈ ctx.vars, v.name ≠ x) (o : F → List (Line F))
    (y : F → F) (h : ∀ a, ∃ rest, evalT cfg (n + 4) (.simple .sub l r) (setVar ctx x a) = ⟨o a, .ok (.scalar (y a) :: rest)⟩) :
    (evalT cfg (n + 5) (.equation [(l, r)] [x]) ctx).out =
      (FArith.ofDec 821785 (-5) :: (List.range 2000).flatMap fun k : Nat => visited cfg y 1000 (FArith.ofInt ((k : Int) - 1000))).flatMap o := by
  have h' : Evaluates cfg (n + 4) ctx x (.simple .sub l r) o y := h
  show (evalRecT cfg (n + 5) (.equation [(l, r)] [x]) ctx []).out = _
  rw [evalRecT]
  unfold solveEquationsT
  extract_lets fe
  have hfe : fe = [.simple .sub l r] := rfl
  clear_value fe
  subst hfe
  obtain ⟨rest, h0⟩ := h' (FArith.ofDec 821785 (-5))
  have hrem : (ctx.addVar ⟨x, [.scalar (FArith.ofDec 821785 (-5))]⟩).removeVar x = ctx :=
    ((Inv.refl (by simpa using hfresh) : Inv ctx [x] ctx).addVars_inv (x := [⟨x, [.scalar (FArith.ofDec 821785 (-5))]⟩]) rfl).remove_eq
      (x := [⟨x, [.scalar (FArith.ofDec 821785 (-5))]⟩]) rfl
  have hnew : RootFinder.newT (fun a c => evalRecT cfg (n + 4) a c []) [.simple .sub l r] ctx [x] =
      ⟨o (FArith.ofDec 821785 (-5)), .ok ⟨[.simple .sub l r], [[0]], ctx, [x]⟩⟩ := by
    unfold RootFinder.newT
    rw [if_neg (by simp), if_neg (by simp [AST.isOperation]), if_neg (by simpa using hfresh), if_neg (by simp)]
    dsimp only [List.foldl_cons, List.foldl_nil]
    rw [show (idx [AST.simple .sub l r] 0 : Out EvalError (AST F)) = .ok (.simple .sub l r) from rfl, Tr.lift_ok_bind, h0, Tr.mk_bind, hrem]
    simp only [List.getElem?_cons_zero, Out.unwrap, Tr.lift_ok_bind, Tr.out_lift, List.append_nil, Tr.res_lift]
    rfl
  rw [hnew, Tr.mk_bind]
  dsimp only
  rw [List.flatMap_cons]
  refine (List.append_right_inj _).2 ?_
  have hkey : ∀ ks : List Nat, (ks.flatMap fun k : Nat => visited cfg y 1000 (FArith.ofInt ((k : Int) - 1000))).flatMap o =
      (ks.map fun k : Nat => (k : Int) - 1000).flatMap fun j => (visited cfg y 1000 (FArith.ofInt j)).flatMap o := fun ks => by
    rw [List.flatMap_assoc, List.flatMap_map]
  have hsv : startValues = (List.range 2000).map fun k : Nat => (k : Int) - 1000 := by
    delta startValues
    with_reducible rfl
  generalize List.range 2000 = ks at hsv ⊢
  rw [hkey ks, ← hsv]
  rw [findRootsLoopT, show (splitExprs [0] 0 [] [AST.simple .sub l r] : Out EvalError _) = .ok ([.simple .sub l r], []) from rfl, Tr.lift_ok_bind]
  dsimp only
  generalize startValues = sv
  obtain ⟨rs, hrs⟩ := loop0_trace n hfresh h' sv []
  rw [Tr.out_bind_quiet _ fun _ => Tr.Quiet.bind (Tr.Quiet.lift _) fun _ _ => ?_, hrs]
  split <;> exact Tr.Quiet.lift _

/-- C91: a request that is rejected at once (no equations, an unknown that is a variable of the context, more unknowns than equations) prints
nothing. -/
theorem C91_rejected (cfg : Cfg) (n : Nat) (ctx : Context F) (eqs : List (AST F × AST F)) (xs : List Str)
    (h : eqs = [] ∨ (∃ x ∈ xs, ∃ v ∈ ctx.vars, v.name = x) ∨ eqs.length < xs.length) : (evalT cfg n (.equation eqs xs) ctx).out = [] := by
  cases n with
  | zero => rfl
  | succ n =>
    show (evalRecT cfg (n + 1) (.equation eqs xs) ctx []).out = []
    rw [evalRecT]
    unfold solveEquationsT
    extract_lets fe
    have hlen : fe.length = eqs.length := List.length_map _
    have hop : (fe.any fun e => !e.isOperation) = false := by
      simp [fe, AST.isOperation]
    clear_value fe
    have hnew : ∃ e, RootFinder.newT (fun a c => evalRecT cfg n a c []) fe ctx xs = .lift (.err e) := by
      unfold RootFinder.newT
      by_cases h0 : fe.length = 0
      · rw [if_pos h0]
        exact ⟨_, rfl⟩
      rw [if_neg h0, hop, if_neg (by simp)]
      by_cases h1 : (xs.any fun i => (ctx.vars.map (·.name)).contains i) = true
      · rw [if_pos h1]
        exact ⟨_, rfl⟩
      rw [if_neg h1]
      rcases h with h | ⟨x, hx, v, hv, he⟩ | h
      · rw [hlen, h] at h0
        exact absurd rfl h0
      · refine absurd ?_ h1
        rw [List.any_eq_true]
        exact ⟨x, hx, by rw [List.contains_iff_mem]; exact he ▸ List.mem_map_of_mem hv⟩
      · rw [if_pos (by omega)]
        exact ⟨_, rfl⟩
    obtain ⟨e, he⟩ := hnew
    rw [he]
    rfl

/-- C91: an equation between vectors or matrices prints what its sides print at 8.21785, and nothing else. -/
theorem C91_not_numbers (cfg : Cfg) (n : Nat) (ctx : Context F) (x : Str) (l r : AST F) (hfresh : ∀ v ∈ ctx.vars, v.name ≠ x) (o : List (Line F))
    (w : Value F) (ws : List (Value F)) (hw : ∀ a, w ≠ .scalar a)
    (h : evalT cfg n (.simple .sub l r) (setVar ctx x (FArith.ofDec 821785 (-5))) = ⟨o, .ok (w :: ws)⟩) :
    (evalT cfg (n + 1) (.equation [(l, r)] [x]) ctx).out = o := by
  show (evalRecT cfg (n + 1) (.equation [(l, r)] [x]) ctx []).out = _
  rw [evalRecT]
  unfold solveEquationsT
  extract_lets fe
  have hfe : fe = [.simple .sub l r] := rfl
  clear_value fe
  subst hfe
  have hnew : ∃ e, RootFinder.newT (fun a c => evalRecT cfg n a c []) [.simple .sub l r] ctx [x] = ⟨o, .err e⟩ := by
    unfold RootFinder.newT
    rw [if_neg (by simp), if_neg (by simp [AST.isOperation]), if_neg (by simpa using hfresh), if_neg (by simp)]
    dsimp only [List.foldl_cons, List.foldl_nil]
    have h : evalRecT cfg n (.simple .sub l r) (ctx.addVar ⟨x, [.scalar (FArith.ofDec 821785 (-5))]⟩) [] = _ := h
    rw [show (idx [AST.simple .sub l r] 0 : Out EvalError (AST F)) = .ok (.simple .sub l r) from rfl, Tr.lift_ok_bind, h, Tr.mk_bind]
    simp only [List.getElem?_cons_zero, Out.unwrap, Tr.lift_ok_bind]
    cases w with
    | scalar a => exact absurd rfl (hw a)
    | vector v => exact ⟨_, by dsimp only; simp only [Tr.out_lift, Tr.res_lift, List.append_nil]; rfl⟩
    | matrix m => exact ⟨_, by dsimp only; simp only [Tr.out_lift, Tr.res_lift, List.append_nil]; rfl⟩
  obtain ⟨e, he⟩ := hnew
  rw [he]
  rfl

end

/-- `eq(x=I(2,t,0,1),x)` at precision 3 (one step of the integral): every evaluation of the equation prints the sums `[2]` once. -/
example : ∃ (o : Q → List (Line Q)) (y : Q → Q), (∀ a, o a = [[Value.scalar (FArith.ofInt 2)]]) ∧
    (evalT ⟨3, true, by decide⟩ 14 (.equation [(.variable ['x'],
      .integral (.scalar (FArith.ofInt 2)) ['t'] (.scalar (FArith.ofInt 0)) (.scalar (FArith.ofInt 1)))] [['x']]) (Context.empty : Context Q)).out =
      (FArith.ofDec 821785 (-5) :: (List.range 2000).flatMap fun k : Nat =>
        visited ⟨3, true, by decide⟩ y 1000 (FArith.ofInt ((k : Int) - 1000))).flatMap o := by
  refine ⟨fun _ => [[.scalar (FArith.ofInt 2)]], fun a => FArith.sub a (FArith.mul (FArith.ofInt 2)
    (FArith.div (FArith.sub (FArith.ofInt 1) (FArith.ofInt 0)) (FArith.powi (FArith.ofInt 10) 0))), fun _ => rfl, ?_⟩
  refine C91_equation ⟨3, true, by decide⟩ 9 _ _ _ _ (by simp [Context.empty]) _ _ fun a => ⟨[], ?_⟩
  with_unfolding_all rfl

/-- `eq(x=I(2,t,0,1),x)` prints nothing if there is a variable `x`. -/
example (n : Nat) : (evalT Cfg.default n (.equation [(.variable ['x'],
      .integral (.scalar (FArith.ofInt 2)) ['t'] (.scalar (FArith.ofInt 0)) (.scalar (FArith.ofInt 1)))] [['x']])
      (⟨[⟨['x'], [.scalar (FArith.ofInt 5)]⟩], []⟩ : Context Q)).out = [] :=
  C91_rejected _ _ _ _ _ (.inr (.inl ⟨['x'], by simp, _, List.mem_singleton.2 rfl, rfl⟩))

/-- `eq([I(2,t,0,1),x]=[1,1],x)` prints `[2]` once. -/
example : (evalT ⟨3, true, by decide⟩ 15 (.equation [(.vector
      [.integral (.scalar (FArith.ofInt 2)) ['t'] (.scalar (FArith.ofInt 0)) (.scalar (FArith.ofInt 1)), .variable ['x']],
      .vector [.scalar (FArith.ofInt 1), .scalar (FArith.ofInt 1)])] [['x']]) (Context.empty : Context Q)).out = [[.scalar (FArith.ofInt 2)]] := by
  refine C91_not_numbers ⟨3, true, by decide⟩ 14 _ _ _ _ (by simp [Context.empty]) _ (.vector
    [FArith.add (FArith.mul (FArith.ofInt 2) (FArith.div (FArith.sub (FArith.ofInt 1) (FArith.ofInt 0)) (FArith.powi (FArith.ofInt 10) 0)))
      (FArith.mul (FArith.ofInt 1) (FArith.ofInt (-1))), FArith.add (FArith.ofDec 821785 (-5)) (FArith.mul (FArith.ofInt 1) (FArith.ofInt (-1)))]) []
    (by simp) ?_
  with_unfolding_all rfl

end MUL
