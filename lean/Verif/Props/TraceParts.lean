import Verif.Props.Trace
import Verif.Num.RatText
/-!
# C91: the parts of an expression print one after the other, from left to right
-/

set_option linter.unusedSectionVars false

namespace MUL
open Out Spec

section
variable {F : Type} [FNum F] {cfg : Cfg} {ctx : Context F}

theorem finishes_budget {b : AST F} {r : Out EvalError (List (Value F))} (h : Finishes (fun n => eval cfg n b ctx) r) :
    ∃ n, ∀ m ≥ n, (evalRecT cfg m b ctx []).res = r := by
  obtain ⟨n, hn⟩ := eval_mono h
  exact ⟨n, fun m hm => by rw [evalRecT_res]; exact hn m hm⟩

/-- **C91.** An operator or function of the language prints what its left operand prints and then what its right operand prints, whatever the right
operand and the operation give. -/
theorem C91_operator (cfg : Cfg) (ctx : Context F) (op : SimpleOp) (l r : AST F) (ls : List (Value F)) (rs res : Out EvalError (List (Value F)))
    (o1 o2 : List (Line F)) (hl : Prints (fun n => evalT cfg n l ctx) o1 (.ok ls)) (hr : Prints (fun n => evalT cfg n r ctx) o2 rs)
    (h : Finishes (fun n => eval cfg n (.simple op l r) ctx) res) :
    Prints (fun n => evalT cfg n (.simple op l r) ctx) (o1 ++ o2) res := by
  obtain ⟨n1, h1⟩ := prints_from hl
  obtain ⟨n2, h2⟩ := prints_from hr
  obtain ⟨n3, h3⟩ := finishes_budget h
  have h1 : evalRecT cfg (n1 + n2 + n3) l ctx [] = _ := h1 _ (by omega)
  have h2 : evalRecT cfg (n1 + n2 + n3) r ctx [] = _ := h2 _ (by omega)
  have h3 := h3 (n1 + n2 + n3 + 1) (by omega)
  refine ⟨h.1, n1 + n2 + n3 + 1, ?_⟩
  show evalRecT cfg _ _ ctx [] = _
  rw [← h3]
  have ho : (evalRecT cfg (n1 + n2 + n3 + 1) (.simple op l r) ctx []).out = o1 ++ o2 := by
    rw [evalRecT, (bind_eta h1 _).2]
    congr 1
    cases rs with
    | ok rv => rw [(bind_eta h2 _).2, Tr.out_lift, List.append_nil]
    | err _ => rw [Tr.bind_stop (by simp [h2]), h2]
    | panic => rw [Tr.bind_stop (by simp [h2]), h2]
    | timeout => exact absurd rfl hr.1
  rw [← ho]

/-- C91: if the left operand fails, the right one is not evaluated: nothing else is printed. -/
theorem C91_operator_stops (cfg : Cfg) (ctx : Context F) (op : SimpleOp) (l r : AST F) (res : Out EvalError (List (Value F))) (o : List (Line F))
    (hl : Prints (fun n => evalT cfg n l ctx) o res) (h : ∀ vs, res ≠ .ok vs) : Prints (fun n => evalT cfg n (.simple op l r) ctx) o res := by
  obtain ⟨n1, h1⟩ := prints_from hl
  have h1 : evalRecT cfg n1 l ctx [] = _ := h1 _ le_rfl
  refine ⟨hl.1, n1 + 1, ?_⟩
  show evalRecT cfg _ _ ctx [] = _
  rw [evalRecT, h1]
  cases res with
  | ok vs => exact absurd rfl (h vs)
  | err _ => rfl
  | panic => rfl
  | timeout => rfl

theorem parts_budget {l : List (AST F)} {ps : List (List (Line F) × List (Value F))}
    (h : List.Forall₂ (fun e p => Prints (fun n => evalT cfg n e ctx) p.1 (.ok p.2)) l ps) :
    ∃ n, ∀ m ≥ n, Tr.mapM (fun e => evalRecT cfg m e ctx []) l = ⟨ps.flatMap Prod.fst, .ok (ps.map Prod.snd)⟩ := by
  induction h with
  | nil => exact ⟨0, fun _ _ => rfl⟩
  | @cons e p l ps he _ ih =>
    obtain ⟨n1, h1⟩ := prints_from he
    obtain ⟨n2, h2⟩ := ih
    refine ⟨n1 + n2, fun m hm => ?_⟩
    have h1 : evalRecT cfg m e ctx [] = _ := h1 m (by omega)
    have h2 := h2 m (by omega)
    show (evalRecT cfg m e ctx [] >>= fun b => Tr.mapM (fun e => evalRecT cfg m e ctx []) l >>= fun bs => (⟨[], .ok (b :: bs)⟩ : Tr _ _ _)) = _
    rw [h1, h2]
    show (⟨p.1 ++ (ps.flatMap Prod.fst ++ []), .ok (p.2 :: ps.map Prod.snd)⟩ : Tr _ _ _) = _
    simp

/-- C91: a list prints what its entries print, from the first to the last. -/
theorem C91_list (cfg : Cfg) (ctx : Context F) (l : List (AST F)) (ps : List (List (Line F) × List (Value F)))
    (h : List.Forall₂ (fun e p => Prints (fun n => evalT cfg n e ctx) p.1 (.ok p.2)) l ps) :
    Prints (fun n => evalT cfg n (.list l) ctx) (ps.flatMap Prod.fst) (.ok (ps.flatMap Prod.snd)) := by
  obtain ⟨n, hn⟩ := parts_budget h
  refine ⟨by simp, n + 1, ?_⟩
  show evalRecT cfg _ _ ctx [] = _
  rw [evalRecT, hn n le_rfl]
  show (⟨ps.flatMap Prod.fst ++ [], .ok (ps.map Prod.snd).flatten⟩ : Tr _ _ _) = _
  simp [List.flatMap_def]

theorem scalars_budget {l : List (AST F)} {ps : List (List (Line F) × List F)} (er : EvalError)
    (h : List.Forall₂ (fun e p => Prints (fun n => evalT cfg n e ctx) p.1 (.ok (p.2.map Value.scalar))) l ps) :
    ∃ n, ∀ m ≥ n, Tr.mapM (fun e => evalRecT cfg m e ctx [] >>= fun vs => (Tr.lift (allScalars er vs) : Tr (Line F) EvalError (List F))) l =
      ⟨ps.flatMap Prod.fst, .ok (ps.map Prod.snd)⟩ := by
  induction h with
  | nil => exact ⟨0, fun _ _ => rfl⟩
  | @cons e p l ps he _ ih =>
    obtain ⟨n1, h1⟩ := prints_from he
    obtain ⟨n2, h2⟩ := ih
    refine ⟨n1 + n2, fun m hm => ?_⟩
    have h1 : evalRecT cfg m e ctx [] = _ := h1 m (by omega)
    have h2 := h2 m (by omega)
    have hs : (allScalars er (p.2.map Value.scalar) : Out EvalError (List F)) = .ok p.2 := by
      generalize p.2 = xs
      induction xs with
      | nil => rfl
      | cons x xs ih =>
        unfold allScalars at ih ⊢
        rw [List.map_cons, List.mapM_cons, ih]
        rfl
    show ((evalRecT cfg m e ctx [] >>= fun vs => (Tr.lift (allScalars er vs) : Tr (Line F) EvalError (List F))) >>= fun b =>
      Tr.mapM (fun e => evalRecT cfg m e ctx [] >>= fun vs => (Tr.lift (allScalars er vs) : Tr (Line F) EvalError (List F))) l >>= fun bs =>
        (⟨[], .ok (b :: bs)⟩ : Tr _ _ _)) = _
    rw [h1, h2]
    show (((⟨p.1, .ok (p.2.map Value.scalar)⟩ : Tr (Line F) EvalError (List (Value F))) >>= fun vs => (Tr.lift (allScalars er vs) :
      Tr (Line F) EvalError (List F))) >>= fun b => (⟨ps.flatMap Prod.fst, .ok (ps.map Prod.snd)⟩ : Tr (Line F) EvalError (List (List F))) >>= fun bs =>
        (⟨[], .ok (b :: bs)⟩ : Tr _ _ _)) = _
    have hb : ((⟨p.1, .ok (p.2.map Value.scalar)⟩ : Tr (Line F) EvalError (List (Value F))) >>= fun vs => (Tr.lift (allScalars er vs) :
      Tr (Line F) EvalError (List F))) = ⟨p.1, .ok p.2⟩ := by
      show (⟨p.1 ++ [], allScalars er (p.2.map Value.scalar)⟩ : Tr (Line F) EvalError (List F)) = _
      rw [hs, List.append_nil]
    rw [hb]
    show (⟨p.1 ++ (ps.flatMap Prod.fst ++ []), .ok (p.2 :: ps.map Prod.snd)⟩ : Tr _ _ _) = _
    simp

/-- C91: a vector prints what its entries print, from the first to the last. -/
theorem C91_vector (cfg : Cfg) (ctx : Context F) (l : List (AST F)) (ps : List (List (Line F) × List F))
    (h : List.Forall₂ (fun e p => Prints (fun n => evalT cfg n e ctx) p.1 (.ok (p.2.map Value.scalar))) l ps) :
    Prints (fun n => evalT cfg n (.vector l) ctx) (ps.flatMap Prod.fst) (.ok ((choices (ps.map Prod.snd)).map Value.vector)) := by
  obtain ⟨n, hn⟩ := scalars_budget .nonScalarInVector h
  refine ⟨by simp, n + 1, ?_⟩
  show evalRecT cfg _ _ ctx [] = _
  rw [evalRecT, hn n le_rfl]
  show (⟨ps.flatMap Prod.fst ++ [], .ok ((cartProd (ps.map Prod.snd)).map Value.vector)⟩ : Tr _ _ _) = _
  rw [List.append_nil, cartProd_eq_choices]

/-- C91: a matrix prints what its entries print, row by row. -/
theorem C91_matrix (cfg : Cfg) (ctx : Context F) (m : List (List (AST F))) (ps : List (List (List (Line F) × List F)))
    (h : List.Forall₂ (fun l ps => List.Forall₂ (fun e p => Prints (fun n => evalT cfg n e ctx) p.1 (.ok (p.2.map Value.scalar))) l ps) m ps) :
    Prints (fun n => evalT cfg n (.matrix m) ctx) (ps.flatMap fun r => r.flatMap Prod.fst)
      (.ok ((choices (ps.map fun r => choices (r.map Prod.snd))).map Value.matrix)) := by
  have key : ∃ n, ∀ k ≥ n, Tr.mapM (fun l => Tr.mapM (fun e => evalRecT cfg k e ctx [] >>= fun vs =>
      (Tr.lift (allScalars .nonScalarInMatrix vs) : Tr (Line F) EvalError (List F))) l) m =
      ⟨ps.flatMap fun r => r.flatMap Prod.fst, .ok (ps.map fun r => r.map Prod.snd)⟩ := by
    induction h with
    | nil => exact ⟨0, fun _ _ => rfl⟩
    | @cons l r m ps hl _ ih =>
      obtain ⟨n1, h1⟩ := scalars_budget .nonScalarInMatrix hl
      obtain ⟨n2, h2⟩ := ih
      refine ⟨n1 + n2, fun k hk => ?_⟩
      have h1 := h1 k (by omega)
      have h2 := h2 k (by omega)
      show (Tr.mapM _ l >>= fun b => Tr.mapM _ m >>= fun bs => (⟨[], .ok (b :: bs)⟩ : Tr _ _ _)) = _
      rw [h1, h2]
      show (⟨r.flatMap Prod.fst ++ ((ps.flatMap fun r => r.flatMap Prod.fst) ++ []), .ok (r.map Prod.snd :: ps.map fun r => r.map Prod.snd)⟩ : Tr _ _ _) = _
      simp
  obtain ⟨n, hn⟩ := key
  refine ⟨by simp, n + 1, ?_⟩
  show evalRecT cfg _ _ ctx [] = _
  rw [evalRecT, hn n le_rfl]
  show (⟨(ps.flatMap fun r => r.flatMap Prod.fst) ++ [], .ok ((cartProd ((ps.map fun r => r.map Prod.snd).map cartProd)).map Value.matrix)⟩ : Tr _ _ _) = _
  have hm : (ps.map fun r => r.map Prod.snd).map cartProd = ps.map fun r => choices (r.map Prod.snd) := by
    rw [List.map_map]
    exact List.map_congr_left fun r _ => cartProd_eq_choices _
  rw [List.append_nil, hm, cartProd_eq_choices]

end

/-! ## concrete cases, on exact rational numbers -/

/-- `I(c,t,0,1)` -/
def unitIntegral (c : Int) : AST Q := .integral (.scalar (FArith.ofInt c)) ['t'] (.scalar (FArith.ofInt 0)) (.scalar (FArith.ofInt 1))

theorem unitIntegral_prints (c : Int) (hc : c = 2 ∨ c = 3) : ∃ v, Prints (fun n => evalT ⟨3, true, by decide⟩ n (unitIntegral c) Context.empty)
    [[.scalar (FArith.ofInt c)]] (.ok [.scalar v]) := by
  refine ⟨FArith.mul (FArith.ofInt c) (FArith.div (FArith.sub (FArith.ofInt 1) (FArith.ofInt 0)) (FArith.powi (FArith.ofInt 10) 0)),
    by simp, 9, ?_⟩
  rcases hc with rfl | rfl <;> with_unfolding_all rfl

/-- `I(2,t,0,1)-I(3,t,0,1)` prints the sums `[2]` and then `[3]`. -/
example : ∃ r, Prints (fun n => evalT ⟨3, true, by decide⟩ n (.simple .sub (unitIntegral 2) (unitIntegral 3)) Context.empty)
    [[.scalar (FArith.ofInt 2)], [.scalar (FArith.ofInt 3)]] r := by
  obtain ⟨v, hv⟩ := unitIntegral_prints 2 (.inl rfl)
  obtain ⟨w, hw⟩ := unitIntegral_prints 3 (.inr rfl)
  obtain ⟨n, hn⟩ := prints_from hv
  obtain ⟨m, hm⟩ := prints_from hw
  refine ⟨.ok [.scalar (FArith.add v (FArith.mul w (FArith.ofInt (-1))))], C91_operator _ _ _ _ _ _ _ _ _ _ hv hw ⟨by simp, n + m + 1, ?_⟩⟩
  have h1 : evalRecT _ (n + m) (unitIntegral 2) Context.empty [] = _ := hn (n + m) (by omega)
  have h2 : evalRecT _ (n + m) (unitIntegral 3) Context.empty [] = _ := hm (n + m) (by omega)
  show eval _ _ _ _ = _
  rw [eval, ← evalRecT_res, evalRecT, h1, h2]
  with_unfolding_all rfl

/-- `y*I(2,t,0,1)`, with any operator, prints nothing if there is no variable `y`. -/
example (op : SimpleOp) : Prints (fun n => evalT ⟨3, true, by decide⟩ n (.simple op (.variable ['y']) (unitIntegral 2)) Context.empty) []
    (.err (.noVariable ['y'])) :=
  C91_operator_stops _ _ _ _ _ _ _ ⟨by simp, 1, rfl⟩ (by simp)

/-- The list of `I(3,t,0,1)`, `5` and `I(2,t,0,1)` prints `[3]` and then `[2]`. -/
example : ∃ v w, Prints (fun n => evalT ⟨3, true, by decide⟩ n (.list [unitIntegral 3, .scalar (FArith.ofInt 5), unitIntegral 2]) Context.empty)
    [[.scalar (FArith.ofInt 3)], [.scalar (FArith.ofInt 2)]] (.ok [.scalar v, .scalar (FArith.ofInt 5), .scalar w]) := by
  obtain ⟨v, hv⟩ := unitIntegral_prints 2 (.inl rfl)
  obtain ⟨w, hw⟩ := unitIntegral_prints 3 (.inr rfl)
  exact ⟨w, v, C91_list _ _ _ [([[.scalar (FArith.ofInt 3)]], [.scalar w]), ([], [.scalar (FArith.ofInt 5)]), ([[.scalar (FArith.ofInt 2)]], [.scalar v])]
    (.cons hw (.cons ⟨by simp, 1, rfl⟩ (.cons hv .nil)))⟩

/-- The vector and the matrix of `I(3,t,0,1)` and `5` (in one row) print `[3]`. -/
example : ∃ w, Prints (fun n => evalT ⟨3, true, by decide⟩ n (.vector [unitIntegral 3, .scalar (FArith.ofInt 5)]) Context.empty)
      [[.scalar (FArith.ofInt 3)]] (.ok [.vector [w, FArith.ofInt 5]]) ∧
    Prints (fun n => evalT ⟨3, true, by decide⟩ n (.matrix [[unitIntegral 3, .scalar (FArith.ofInt 5)], [unitIntegral 3, unitIntegral 3]]) Context.empty)
      [[.scalar (FArith.ofInt 3)], [.scalar (FArith.ofInt 3)], [.scalar (FArith.ofInt 3)]] (.ok [.matrix [[w, FArith.ofInt 5], [w, w]]]) := by
  obtain ⟨w, hw⟩ := unitIntegral_prints 3 (.inr rfl)
  exact ⟨w, C91_vector _ _ _ [([[.scalar (FArith.ofInt 3)]], [w]), ([], [FArith.ofInt 5])] (.cons hw (.cons ⟨by simp, 1, rfl⟩ .nil)),
    C91_matrix _ _ _ [[([[.scalar (FArith.ofInt 3)]], [w]), ([], [FArith.ofInt 5])], [([[.scalar (FArith.ofInt 3)]], [w]), ([[.scalar (FArith.ofInt 3)]], [w])]]
      (.cons (.cons hw (.cons ⟨by simp, 1, rfl⟩ .nil)) (.cons (.cons hw (.cons hw .nil)) .nil))⟩

end MUL
