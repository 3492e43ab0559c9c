import Verif.Props.Roots
import Verif.Proofs.Calculus
import Verif.Num.Real
/-!
# C81: equations without unknowns are tests
-/

namespace MUL
open Out Spec

set_option linter.unusedSectionVars false

section
variable {F : Type} [FNum F]

theorem residuals_budget {cfg : Cfg} {ctx : Context F} {es : List (AST F)} {rs : List F} (h : Residuals cfg ctx [] [] es rs) :
    ∃ n, ∀ m ≥ n, evalScalars (eval cfg m) es ctx = .ok rs := by
  unfold Residuals at h
  induction h with
  | nil => exact ⟨0, fun _ _ => rfl⟩
  | cons h _ ih =>
    obtain ⟨rest, h⟩ := h
    obtain ⟨n, hn⟩ := eval_mono h
    obtain ⟨k, hk⟩ := ih
    refine ⟨max n k, fun m hm => ?_⟩
    have h1 := hn m (by omega)
    have h2 := hk m (by omega)
    unfold evalScalars at h2 ⊢
    rw [List.mapM_cons, show eval cfg m _ ctx = _ from h1, ok_bind]
    have h3 : ∀ (r : F) (vs : List (Value F)), (firstScalar (.scalar r :: vs) : Out EvalError F) = .ok r := fun _ _ => rfl
    rw [h3, ok_bind, h2]
    rfl

theorem normSmall_iff (cfg : Cfg) (rs : List F) : normSmall cfg rs = true ↔ Negligible cfg rs := by
  unfold normSmall
  rw [Bool.and_eq_true]
  exact ⟨fun h => ⟨h.2, h.1⟩, fun h => ⟨h.2, h.1⟩⟩

theorem newton_test {cfg : Cfg} {ev : Evaluator F} {es : List (AST F)} {rs : List F} {ctx : Context F} (hne : es ≠ [])
    (h0 : Negligible cfg ([] : List F)) (h : evalScalars ev es ctx = .ok rs) :
    newton cfg ev [] es [] ctx = if normSmall cfg rs then (.ok (.finishedX []), ctx) else (.err .expressionCheckFailed, ctx) := by
  have hlen : rs.length = es.length := by
    unfold evalScalars at h
    exact (mapM_eq_ok.1 h).length_eq.symm
  have hrs : rs.isEmpty = false := by
    cases rs with
    | nil => exact absurd (List.length_eq_zero_iff.1 hlen.symm) hne
    | cons _ _ => rfl
  have hz : evalScalars ev [] ctx = .ok [] := rfl
  unfold newton
  simp only [addVars, removeVars, List.foldl_nil, hz, (normSmall_iff cfg _).2 h0, h, hrs]
  simp

theorem loop0_test {cfg : Cfg} {ev : Evaluator F} {es : List (AST F)} {rs : List F} {ctx : Context F} (hne : es ≠ [])
    (h0 : Negligible cfg ([] : List F)) (h : evalScalars ev es ctx = .ok rs) (js : List Int) (acc : List (Value F)) :
    solveLoop0 cfg ev [] es [] js ctx acc = .ok (acc ++ if normSmall cfg rs then List.replicate js.length (.vector []) else []) := by
  induction js generalizing acc with
  | nil => simp [solveLoop0]
  | cons j js ih =>
    unfold solveLoop0
    have hl : solveLoop1 cfg ev [] es 1000 [] ctx = .ok ⟨if normSmall cfg rs then some (.vector []) else none, false, ctx⟩ := by
      rw [show (1000 : Nat) = 999 + 1 from rfl]
      unfold solveLoop1
      rw [newton_test hne h0 h]
      by_cases hs : normSmall cfg rs = true
      · rw [if_pos hs, if_pos hs]
        rfl
      · rw [if_neg hs, if_neg hs]
    simp only [List.map_nil, hl, ok_bind, Bool.false_eq_true, if_false]
    by_cases hs : normSmall cfg rs = true
    · simp only [if_pos hs] at ih ⊢
      rw [ih]
      simp [List.replicate_succ]
    · simp only [if_neg hs] at ih ⊢
      rw [ih]

theorem dedup_replicate {cfg : Cfg} (k : Nat) :
    dedupResults cfg (List.replicate k (.vector [] : Value F)) [.vector []] = [.vector []] := by
  induction k with
  | zero => rfl
  | succ k ih =>
    rw [List.replicate_succ]
    unfold dedupResults
    rw [if_pos, ih]
    simp [Value.round, Value.roundTo, Value.beq, Value.beqList]

/-- C81: without unknowns, `eq(...)` tests its equations. If the differences of the two sides have the (first) values `rs`, there is one
solution, without entries, if `rs` are negligible, and none otherwise. -/
theorem C81_test (cfg : Cfg) (eqs : List (AST F × AST F)) (ctx : Context F) (rs : List F) (hne : eqs ≠ [])
    (h0 : Negligible cfg ([] : List F)) (h : Residuals cfg ctx [] [] (eqs.map residualExpr) rs) :
    (Negligible cfg rs → Finishes (fun n => eval cfg n (.equation eqs []) ctx) (.ok [.vector []])) ∧
    (¬ Negligible cfg rs → Finishes (fun n => eval cfg n (.equation eqs []) ctx) (.ok [])) := by
  obtain ⟨n, hn⟩ := residuals_budget h
  have hn := hn n le_rfl
  have hes : eqs.map residualExpr ≠ [] := by simpa using hne
  have hop : (eqs.map residualExpr).any (fun e => !e.isOperation) = false := by
    rw [List.any_eq_false]
    intro e he
    obtain ⟨p, _, rfl⟩ := List.mem_map.1 he
    simp [residualExpr, AST.isOperation]
  have he : eval cfg (n + 1) (.equation eqs []) ctx = solveEquations cfg (eval cfg n) eqs ctx [] := by
    unfold eval
    rw [evalRec.eq_def]
  have hmain : eval cfg (n + 1) (.equation eqs []) ctx = .ok (if normSmall cfg rs then [.vector []] else []) := by
    rw [he]
    unfold solveEquations
    simp only
    change (RootFinder.new (eval cfg n) (eqs.map residualExpr) ctx [] >>= fun rf => rf.findRoots cfg (eval cfg n)) = _
    generalize eqs.map residualExpr = es at *
    have hnew : RootFinder.new (eval cfg n) es ctx [] = .ok ⟨es, [[]], ctx, []⟩ := by
      obtain ⟨e, es, rfl⟩ := List.exists_cons_of_ne_nil hes
      have h1 : ∃ r rest, eval cfg n e ctx = .ok (.scalar r :: rest) := by
        unfold evalScalars at hn
        rw [List.mapM_cons] at hn
        obtain ⟨r, hr, _⟩ := bind_eq_ok.1 hn
        obtain ⟨vs, hvs, hr⟩ := bind_eq_ok.1 hr
        rw [hvs]
        rcases vs with _ | ⟨v, vs⟩
        · cases hr
        · simp only [firstScalar, List.getElem?_cons_zero, Out.unwrap, ok_bind] at hr
          cases v with
          | scalar s => exact ⟨s, vs, rfl⟩
          | vector v => cases hr
          | matrix v => cases hr
      obtain ⟨r, rest, h1⟩ := h1
      have hc : generateCombinations (List.range (es.length + 1)) 0 [] = [[]] := by
        cases hr : List.range (es.length + 1) with
        | nil => simp [generateCombinations]
        | cons a l => simp [generateCombinations]
      unfold RootFinder.new
      simp only [List.length_cons, hop, List.foldl_nil, idx, List.getElem?_cons_zero, h1, ok_bind, Out.unwrap, List.length_nil, hc]
      simp
    rw [hnew, ok_bind]
    unfold RootFinder.findRoots findRootsLoop
    have hs : (splitExprs [] 0 [] es : Out EvalError _) = .ok ([], es) := rfl
    have hlen : startValues.length = 1999 + 1 := by
      unfold startValues
      rw [List.length_map, List.length_range]
    generalize startValues = js at hlen ⊢
    simp only [hs, ok_bind]
    rw [loop0_test hes h0 hn, ok_bind, hlen]
    by_cases hsm : normSmall cfg rs = true
    · rw [if_pos hsm, if_pos hsm, List.nil_append, List.replicate_succ]
      have hcl : (cleanResults cfg (.vector [] :: List.replicate 1999 (.vector [])) : Out EvalError (List (Value F))) = .ok [.vector []] := by
        unfold cleanResults
        generalize 1999 = k
        have hd : dedupResults cfg (.vector [] :: List.replicate k (.vector [] : Value F)) [] = [.vector []] := by
          unfold dedupResults
          rw [if_neg (by simp), List.nil_append, dedup_replicate]
        simp only [hd]
        rfl
      rw [hcl, ok_bind]
      rfl
    · rw [if_neg hsm, if_neg hsm, List.nil_append]
      rfl
  rw [← normSmall_iff]
  constructor <;> intro hs
  · exact ⟨nofun, n + 1, by beta_reduce; rw [hmain, if_pos hs]⟩
  · exact ⟨nofun, n + 1, by beta_reduce; rw [hmain, if_neg hs]⟩

/-- C81: the solution without entries is not a well-formed value: indexing it panics. -/
theorem C81_panic (cfg : Cfg) (eqs : List (AST F × AST F)) (ctx : Context F) (rs : List F) (hne : eqs ≠ [])
    (h0 : Negligible cfg ([] : List F)) (h : Residuals cfg ctx [] [] (eqs.map residualExpr) rs) (hs : Negligible cfg rs) (i : F)
    (hi : FArith.beq (FArith.rem i (FArith.ofInt 1)) (FArith.ofInt 0) = true) (hi0 : FArith.isSignNeg i = false) :
    Finishes (fun n => eval cfg n (.simple .get (.equation eqs []) (.scalar i)) ctx) .panic := by
  obtain ⟨n, hn⟩ := eval_mono ((C81_test cfg eqs ctx rs hne h0 h).1 hs)
  have hn := hn (n + 1) (by omega)
  unfold eval at hn
  refine ⟨nofun, n + 2, ?_⟩
  beta_reduce
  have hsc : evalRec cfg (n + 1) (.scalar i) ctx [] = .ok [.scalar i] := by simp only [evalRec]
  unfold eval
  rw [evalRec.eq_def]
  simp only [hn, hsc, ok_bind]
  simp [applyAll, applyOp, vGet, hi, hi0, liftMath, Out.mapErr]

end

section
variable {F : Type} [FNum F] [ExactReal F]

theorem negligible_nil (cfg : Cfg) : Negligible cfg ([] : List F) := by
  have h10 : Exact.val (FArith.powi (FArith.ofInt 10 : F) (-(cfg.prec : Int))) = some ((10 : ℝ) ^ (-(cfg.prec : Int))) := by
    rw [Exact.val_powi (Exact.val_ofInt 10) (Or.inr (by norm_num))]
    norm_num
  have hneg : Exact.val (FArith.neg (FArith.powi (FArith.ofInt 10 : F) (-(cfg.prec : Int)))) = some (-(10 : ℝ) ^ (-(cfg.prec : Int))) := by
    rw [Exact.val_neg, h10]
    rfl
  have hz : Exact.val (residualLength ([] : List F)) = some (0 : ℝ) := by
    unfold residualLength
    have : Exact.val (FArith.ofInt 0 : F) = some (0 : ℝ) := by simpa using Exact.val_ofInt (F := F) (K := ℝ) 0
    rw [List.foldl_nil, ExactReal.val_sqrt this le_rfl, Real.sqrt_zero]
  have hp : (0 : ℝ) < 10 ^ (-(cfg.prec : Int)) := zpow_pos (by norm_num) _
  refine ⟨?_, ?_⟩
  · rw [Exact.lt_val hz h10]
    simpa using hp
  · rw [Exact.lt_val hneg hz]
    simpa using hp

theorem negligible_one (cfg : Cfg) (r : F) (x : ℝ) (hr : Exact.val r = some x) : Negligible cfg [r] ↔ |x| < 10 ^ (-(cfg.prec : Int)) := by
  have h10 : Exact.val (FArith.powi (FArith.ofInt 10 : F) (-(cfg.prec : Int))) = some ((10 : ℝ) ^ (-(cfg.prec : Int))) := by
    rw [Exact.val_powi (Exact.val_ofInt 10) (Or.inr (by norm_num))]
    norm_num
  have hneg : Exact.val (FArith.neg (FArith.powi (FArith.ofInt 10 : F) (-(cfg.prec : Int)))) = some (-(10 : ℝ) ^ (-(cfg.prec : Int))) := by
    rw [Exact.val_neg, h10]
    rfl
  have hz : Exact.val (residualLength [r]) = some |x| := by
    unfold residualLength
    have h0 : Exact.val (FArith.ofInt 0 : F) = some (0 : ℝ) := by simpa using Exact.val_ofInt (F := F) (K := ℝ) 0
    have h2 : Exact.val (FArith.powi r 2) = some (x ^ 2) := by
      rw [Exact.val_powi (n := 2) hr (Or.inl (by norm_num))]
      norm_cast
    have h3 := Exact.val_add h0 h2
    rw [List.foldl_cons, List.foldl_nil, ExactReal.val_sqrt h3 (by positivity), zero_add, Real.sqrt_sq_eq_abs]
  have hp : (0 : ℝ) < 10 ^ (-(cfg.prec : Int)) := zpow_pos (by norm_num) _
  unfold Negligible
  rw [Exact.lt_val hz h10, Exact.lt_val hneg hz, decide_eq_true_eq, decide_eq_true_eq]
  have := abs_nonneg x
  exact ⟨fun h => h.1, fun h => ⟨h, by linarith⟩⟩

/-- C81 for one equation in exact arithmetic: if the two sides have the values `x` and `y`, `eq(..=..)` has a solution (without entries)
exactly if `x` and `y` differ by less than `10^-PREC`. -/
theorem C81_exact (cfg : Cfg) (l r : AST F) (ctx : Context F) (a b : F) (x y : ℝ)
    (hl : Finishes (fun n => eval cfg n l ctx) (.ok [.scalar a])) (hr : Finishes (fun n => eval cfg n r ctx) (.ok [.scalar b]))
    (ha : Exact.val a = some x) (hb : Exact.val b = some y) :
    (|x - y| < 10 ^ (-(cfg.prec : Int)) → Finishes (fun n => eval cfg n (.equation [(l, r)] []) ctx) (.ok [.vector []])) ∧
    (10 ^ (-(cfg.prec : Int)) ≤ |x - y| → Finishes (fun n => eval cfg n (.equation [(l, r)] []) ctx) (.ok [])) := by
  have hv : Exact.val (FArith.add a (FArith.mul b (FArith.ofInt (-1)))) = some (x - y) := by
    rw [Exact.val_add ha (Exact.val_mul hb (Exact.val_ofInt (-1)))]
    congr 1
    push_cast
    ring
  have hres : Residuals cfg ctx [] [] ([(l, r)].map residualExpr) [FArith.add a (FArith.mul b (FArith.ofInt (-1)))] := by
    refine .cons ⟨[], nofun, ?_⟩ .nil
    obtain ⟨n, hn⟩ := eval_mono hl
    obtain ⟨m, hm⟩ := eval_mono hr
    have h1 := hn (max n m) (by omega)
    have h2 := hm (max n m) (by omega)
    refine ⟨max n m + 1, ?_⟩
    unfold eval at h1 h2
    change eval cfg (max n m + 1) (.simple .sub l r) ctx = _
    unfold eval
    rw [evalRec.eq_def]
    simp only [h1, h2, ok_bind]
    rfl
  have h := C81_test cfg [(l, r)] ctx _ (by simp) (negligible_nil cfg) hres
  rw [negligible_one cfg _ _ hv] at h
  exact ⟨h.1, fun hxy => h.2 (not_lt.2 hxy)⟩

/-- `eq(3=3)` has a solution, `eq(3=4)` has none. -/
example (cfg : Cfg) : Finishes (fun n => eval cfg n (.equation [(.scalar (FArith.ofInt 3 : F), .scalar (FArith.ofInt 3))] []) ⟨[], []⟩)
      (.ok [.vector []]) ∧
    Finishes (fun n => eval cfg n (.equation [(.scalar (FArith.ofInt 3 : F), .scalar (FArith.ofInt 4))] []) ⟨[], []⟩) (.ok []) := by
  have h : ∀ s : F, Finishes (fun n => eval cfg n (.scalar s) ⟨[], []⟩) (.ok [.scalar s]) := fun s => ⟨nofun, 1, rfl⟩
  refine ⟨(C81_exact cfg _ _ _ _ _ 3 3 (h _) (h _) (by simpa using Exact.val_ofInt (F := F) (K := ℝ) 3)
    (by simpa using Exact.val_ofInt (F := F) (K := ℝ) 3)).1 ?_,
    (C81_exact cfg _ _ _ _ _ 3 4 (h _) (h _) (by simpa using Exact.val_ofInt (F := F) (K := ℝ) 3)
    (by simpa using Exact.val_ofInt (F := F) (K := ℝ) 4)).2 ?_⟩
  · simpa using zpow_pos (by norm_num : (0 : ℝ) < 10) _
  · have : (10 : ℝ) ^ (-(cfg.prec : Int)) ≤ 1 := zpow_le_one_of_nonpos₀ (by norm_num) (by omega)
    norm_num at this ⊢
    exact this

end
end MUL
