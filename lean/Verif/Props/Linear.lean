import Verif.Proofs.Linear
import Mathlib.LinearAlgebra.Matrix.Nondegenerate
/-!
# C48: linear systems are solved by `eq`
-/

namespace MUL
open Out Spec

set_option linter.unusedSectionVars false

section
variable {F : Type} [FNum F]

theorem Inv.remove_eq {c0 c : Context F} {names : List Str} (h : Inv c0 names c) {x : List (Variable F)}
    (hx : x.map (·.name) = names) : removeVars c x = c0 := by
  rw [removeVars_eq, hx, h.vars, h.funs]

theorem splitExprs_all {ε α : Type} (done : Nat) (s c : List α) :
    (splitExprs (List.range' done c.length) done s c : Out ε (List α × List α)) = .ok (s ++ c, []) := by
  induction c generalizing done s with
  | nil => simp [splitExprs]
  | cons a c ih =>
    rw [List.length_cons, List.range'_succ]
    unfold splitExprs
    rw [if_neg (by omega), Nat.sub_self]
    simp only [idx, List.getElem?_cons_zero, ok_bind, List.eraseIdx_cons_zero]
    have := ih (done + 1) (s ++ [a])
    show (splitExprs (List.range' (done + 1) c.length) (done + 1) (s ++ [a]) c : Out ε (List α × List α)) = _
    rw [this]
    simp

end

section
variable {F : Type} [FNum F] [ExactReal F]
variable {cfg : Cfg} {m n : Nat} {ctx : Context F} {names : List Str} {es : List (AST F)}
  {A : Matrix (Fin n) (Fin n) ℝ} {b : Fin n → ℝ}

theorem finite_of_val {a : F} {x : ℝ} (h : Exact.val a = some x) : IsFinite a := by
  have := Exact.finite_iff (F := F) (K := ℝ) a
  rw [h, Option.isNone_some, Bool.or_eq_false_iff] at this
  exact ⟨this.2, this.1⟩

/-- The Newton iteration on a linear system ends after at most two evaluations, at the solution. -/
theorem LinSys.loop1 (h : LinSys cfg m ctx names es A b) (hn : 0 < n)
    (hA : ∀ k (hk : k ≤ n), (A.submatrix (Fin.castLE hk) (Fin.castLE hk)).det ≠ 0)
    {l : List F} {x : Fin n → ℝ} (hx : VecIs l x)
    (hstart : A.mulVec x = b ∨ ∃ i, (10 : ℝ) ^ (-(cfg.prec : Int)) ≤ |A.mulVec x i - b i|)
    {c : Context F} (hc : Inv ctx names c) (k : Nat) :
    ∃ l' X, VecIs l' X ∧ A.mulVec X = b ∧
      solveLoop1 cfg (eval cfg (m + 4)) es [] (k + 2) (assigned names l) c = .ok ⟨some (asSolution l'), false, ctx⟩ := by
  have h4 := h.mono (Nat.le_add_right m 4)
  -- an iteration at the solution
  have hfin : ∀ (l : List F) (x : Fin n → ℝ), VecIs l x → A.mulVec x = b → ∀ {c : Context F}, Inv ctx names c → ∀ k,
      solveLoop1 cfg (eval cfg (m + 4)) es [] (k + 1) (assigned names l) c = .ok ⟨some (asSolution l), false, ctx⟩ := by
    intro l x hx hAx c hc k
    have ha : Assigns names (assigned names l) l := ⟨rfl, by rw [hx.1, h.names_len]⟩
    obtain ⟨fx, hfx1, hfx2⟩ := h4.scalars hx
    have hsmall : normSmall cfg fx = true := by
      apply normSmall_zero
      intro r hr
      obtain ⟨i, hi, rfl⟩ := List.getElem_of_mem hr
      have := hfx2.2 ⟨i, by rw [← hfx2.1]; exact hi⟩
      rw [hAx] at this
      simpa using this
    have hnewton : newton cfg (eval cfg (m + 4)) es [] (assigned names l) c = (.ok (.finishedX (assigned names l)), ctx) := by
      unfold newton
      dsimp only
      have e1 : addVars c (assigned names l) = setVars ctx names l := by rw [hc.addVars ha.names, ha.setVars]
      have i1 : Inv ctx names (addVars c (assigned names l)) := hc.addVars_inv ha.names
      have e2 : removeVars (addVars c (assigned names l)) (assigned names l) = ctx := i1.remove_eq ha.names
      have i2 : Inv ctx names (addVars ctx (assigned names l)) := by
        rw [← hc.addVars ha.names]
        exact i1
      have e3 : evalScalars (eval cfg (m + 4)) [] (addVars ctx (assigned names l)) = .ok [] := rfl
      rw [e2, e1, hfx1]
      simp only [hsmall, if_true, e3, List.isEmpty_nil, i2.remove_eq ha.names]
    unfold solveLoop1
    rw [hnewton]
    simp only [ha.result, ok_bind]
  rcases hstart with hs | ⟨i, hi⟩
  · exact ⟨l, x, hx, hs, hfin l x hx hs hc (k + 1)⟩
  · have ha : Assigns names (assigned names l) l := ⟨rfl, by rw [hx.1, h.names_len]⟩
    obtain ⟨fx, hfx1, hfx2⟩ := h4.scalars hx
    have hbig : normSmall cfg fx = false := by
      by_contra hc
      obtain ⟨hi', hv⟩ := hfx2.get i.2
      obtain ⟨y, hy, hy'⟩ := normSmall_lt (by simpa using hc) _ (List.getElem_mem hi')
      rw [hv] at hy
      injection hy with hy
      rw [← hy] at hy'
      exact absurd hy' (not_lt.2 hi)
    obtain ⟨l', X, hj, hX, hAX⟩ := h.jacobi hn hA hx hfx2
    refine ⟨l', X, hX, hAX, ?_⟩
    have ha' : Assigns names (assigned names l') l' := ⟨rfl, by rw [hX.1, h.names_len]⟩
    have hnewton : newton cfg (eval cfg (m + 4)) es [] (assigned names l) c = (.ok (.nextX (assigned names l')), ctx) := by
      unfold newton
      dsimp only
      have e1 : addVars c (assigned names l) = setVars ctx names l := by rw [hc.addVars ha.names, ha.setVars]
      have i1 : Inv ctx names (addVars c (assigned names l)) := hc.addVars_inv ha.names
      have e2 : removeVars (addVars c (assigned names l)) (assigned names l) = ctx := i1.remove_eq ha.names
      have hvals : (assigned names l').mapM (fun i => (Out.unwrap i.values[0]? : Out EvalError (Value F))) = .ok (l'.map Value.scalar) := by
        have hlen : names.length = l'.length := ha'.len.symm
        clear ha' hX hj hfin hfx1 hfx2 ha h h4 hx i1 e1 e2 hc
        unfold assigned
        induction names generalizing l' with
        | nil =>
          cases l' with
          | nil => rfl
          | cons => simp at hlen
        | cons nm names ih =>
          cases l' with
          | nil => simp at hlen
          | cons a l' =>
            rw [List.zip_cons_cons, List.map_cons, List.mapM_cons, ih l' (by simpa using hlen)]
            rfl
      have hany : (l'.map Value.scalar).any Value.isInfOrNan = false := by
        rw [List.any_eq_false]
        intro v hv
        obtain ⟨a, ha, rfl⟩ := List.mem_map.1 hv
        obtain ⟨i, hi, rfl⟩ := List.getElem_of_mem ha
        have := finite_of_val (hX.2 ⟨i, by rw [← hX.1]; exact hi⟩)
        simp [Value.isInfOrNan, this.1, this.2]
      rw [e2, e1, hfx1]
      simp only [hbig, Bool.false_eq_true, if_false, hj, hvals, hany]
    unfold solveLoop1
    rw [hnewton]
    exact hfin l' X hX hAX (Inv.refl fun v hv hn => h.fresh _ hn v hv rfl) k

theorem roundScalar_beq (p : Nat) {a a' : F} {x : ℝ} (h : Exact.val a = some x) (h' : Exact.val a' = some x) :
    FArith.beq (Value.roundScalar a p) (Value.roundScalar a' p) = true := by
  rw [Exact.beq_val (roundScalar_val p h) (roundScalar_val p h')]
  simp

theorem same_solution {p : Nat} (h31 : p < 2 ^ 31) {l l' : List F} {X : Fin n → ℝ} (h : VecIs l X) (h' : VecIs l' X) :
    Value.beq ((asSolution l).round p) ((asSolution l').round p) = true := by
  have key : ∀ (n : Nat) (l l' : List F) (X : Fin n → ℝ), VecIs l X → VecIs l' X →
      Value.beqList (l.map fun i => Value.roundScalar i p) (l'.map fun i => Value.roundScalar i p) = true := by
    intro n
    induction n with
    | zero =>
      intro l l' X h h'
      rw [List.length_eq_zero_iff.1 h.1, List.length_eq_zero_iff.1 h'.1]
      rfl
    | succ n ih =>
      intro l l' X h h'
      match l, l', h, h' with
      | [], _, h, _ => have := h.1; simp at this
      | _, [], _, h' => have := h'.1; simp at this
      | a :: l, a' :: l', h, h' =>
        rw [vecIs_cons] at h h'
        simp only [List.map_cons, Value.beqList, roundScalar_beq p h.1 h'.1, ih l l' _ h.2 h'.2, Bool.and_self]
  have hlen : l.length = l'.length := h.1.trans h'.1.symm
  have hk := key n l l' X h h'
  rw [Value.round_small _ h31, Value.round_small _ h31]
  match l, l', hlen, hk with
  | [], [], _, hk => exact hk
  | [a], [a'], _, hk =>
    simp only [List.map_cons, List.map_nil, Value.beqList, Bool.and_true] at hk
    exact hk
  | a :: b :: l, a' :: b' :: l', _, hk => exact hk

/-- All results are solutions. -/
theorem LinSys.loop0 (h : LinSys cfg m ctx names es A b) (hn : 0 < n)
    (hA : ∀ k (hk : k ≤ n), (A.submatrix (Fin.castLE hk) (Fin.castLE hk)).det ≠ 0)
    (js : List Int) (hstart : ∀ j ∈ js, A.mulVec (fun _ => (j : ℝ)) = b ∨
      ∃ i, (10 : ℝ) ^ (-(cfg.prec : Int)) ≤ |A.mulVec (fun _ => (j : ℝ)) i - b i|)
    (acc : List (Value F)) (hacc : ∀ v ∈ acc, ∃ l X, v = asSolution l ∧ VecIs l X ∧ A.mulVec X = b) :
    ∃ r, solveLoop0 cfg (eval cfg (m + 4)) es [] names js ctx acc = .ok r ∧ r.length = acc.length + js.length ∧
      ∀ v ∈ r, ∃ l X, v = asSolution l ∧ VecIs l X ∧ A.mulVec X = b := by
  induction js generalizing acc with
  | nil => exact ⟨acc, rfl, rfl, hacc⟩
  | cons j js ih =>
    have hx : VecIs (n := n) (List.replicate n (FArith.ofInt j : F)) (fun _ => (j : ℝ)) :=
      ⟨List.length_replicate, fun i => by rw [List.getElem_replicate]; exact Exact.val_ofInt j⟩
    obtain ⟨l', X, h1, h2, h3⟩ := h.loop1 hn hA hx (hstart j (by simp))
      (Inv.refl (fun v hv hn => h.fresh _ hn v hv rfl)) 998
    have hz : (names.map fun k => (⟨k, [.scalar (FArith.ofInt j)]⟩ : Variable F)) = assigned names (List.replicate n (FArith.ofInt j)) := by
      apply List.ext_getElem
      · simp [assigned, h.names_len]
      · intro i h1 h2
        simp [assigned]
    obtain ⟨r, hr1, hr2, hr3⟩ := ih (fun j hj => hstart j (by simp [hj])) (acc ++ [asSolution l']) (by
      intro v hv
      rcases List.mem_append.1 hv with hv | hv
      · exact hacc v hv
      · exact ⟨l', X, List.mem_singleton.1 hv, h1, h2⟩)
    refine ⟨r, ?_, by simp only [hr2, List.length_append, List.length_cons, List.length_nil]; omega, hr3⟩
    unfold solveLoop0
    rw [hz]
    dsimp only
    rw [show 1000 = 998 + 2 from rfl, h3, ok_bind]
    exact hr1

/-- C48: `eq` solves every linear system all of whose leading principal minors are non-zero (exact arithmetic): it reports exactly
one solution, and that is the solution of the system. No start value `(j, …, j)` may be an approximate solution (residual below
`10^-PREC`) without being the exact one; such a start value would be reported as it is. -/
theorem C48_eq_solves (cfg : Cfg) (ctx : Context F) (eqs : List (AST F × AST F)) (names : List Str) {n : Nat}
    (A : Matrix (Fin (n + 1)) (Fin (n + 1)) ℝ) (b : Fin (n + 1) → ℝ)
    (heqs : eqs.length = n + 1) (hnames : names.length = n + 1) (hnodup : names.Nodup)
    (hfresh : ∀ x ∈ names, ∀ v ∈ ctx.vars, v.name ≠ x)
    (hlin : LinearEquations cfg ctx eqs names A b)
    (hminors : ∀ k (hk : k ≤ n + 1), (A.submatrix (Fin.castLE hk) (Fin.castLE hk)).det ≠ 0)
    (hstart : ∀ j : Int, -1000 ≤ j → j < 1000 → A.mulVec (fun _ => (j : ℝ)) = b ∨
      ∃ i, (10 : ℝ) ^ (-(cfg.prec : Int)) ≤ |A.mulVec (fun _ => (j : ℝ)) i - b i|) :
    ∃ l X, Finishes (fun n => eval cfg n (.equation eqs names) ctx) (.ok [asSolution l]) ∧
      l.map Exact.val = List.ofFn (fun i => some (X i)) ∧ A.mulVec X = b := by
  obtain ⟨m, hm⟩ := hlin
  have hsys : LinSys cfg m ctx names (eqs.map residualExpr) A b := by
    refine ⟨by simpa using heqs, hnames, hnodup, hfresh, fun l x hx i => ?_⟩
    have hi : i.1 < eqs.length := by rw [heqs]; exact i.2
    obtain ⟨r, h1, h2⟩ := hm l x (vecIs_iff.1 hx) i eqs[i.1] (List.getElem?_eq_getElem hi)
    exact ⟨r, by simpa using h1, h2⟩
  have h4 := hsys.mono (Nat.le_add_right m 4)
  obtain ⟨res, hr1, hr2, hr3⟩ := hsys.loop0 (Nat.succ_pos n) hminors startValues (by
    intro j hj
    unfold startValues at hj
    obtain ⟨k, hk, rfl⟩ := List.mem_map.1 hj
    rw [List.mem_range] at hk
    exact hstart _ (by omega) (by omega)) [] (by simp)
  have hdet : A.det ≠ 0 := by
    have := hminors (n + 1) le_rfl
    simpa using this
  have hinj : ∀ X Y, A.mulVec X = b → A.mulVec Y = b → X = Y := fun X Y h1 h2 =>
    Matrix.mulVec_injective_of_det_ne_zero hdet (h1.trans h2.symm)
  cases res with
  | nil => simp [startValues] at hr2
  | cons v0 rest =>
    obtain ⟨l, X, rfl, hl, hX⟩ := hr3 v0 (by simp)
    refine ⟨l, X, ⟨by simp, m + 4 + 1, ?_⟩, vecIs_iff.1 hl, hX⟩
    -- duplicates are removed
    have hdedup : dedupResults cfg (asSolution l :: rest) [] = [asSolution l] := by
      have key : ∀ rest : List (Value F), (∀ v ∈ rest, ∃ l X, v = asSolution l ∧ VecIs l X ∧ A.mulVec X = b) →
          dedupResults cfg rest [asSolution l] = [asSolution l] := by
        intro rest
        induction rest with
        | nil => intro _; rfl
        | cons v rest ih =>
          intro hall
          obtain ⟨l', X', rfl, hl', hX'⟩ := hall v (by simp)
          rw [hinj X' X hX' hX] at hl'
          unfold dedupResults
          rw [if_pos (by simp [same_solution cfg.small_two hl' hl])]
          exact ih fun v hv => hall v (by simp [hv])
      unfold dedupResults
      rw [if_neg (by simp), List.nil_append]
      exact key rest fun v hv => hr3 v (by simp [hv])
    have hclean : (cleanResults cfg (asSolution l :: rest) : Out EvalError _) = .ok [asSolution l] := by
      unfold cleanResults
      simp only [hdedup]
      split
      · rfl
      · rw [if_neg (by simp)]
    -- the root finder is set up
    have hprobe : ∃ s, eval cfg (m + 4) ((eqs.map residualExpr)[0]'(by simp [heqs]))
        (setVars ctx names (List.replicate names.length (FArith.ofDec 821785 (-5)))) = .ok [.scalar s] := by
      have hx : VecIs (List.replicate names.length (FArith.ofDec 821785 (-5) : F)) (fun (_ : Fin (n + 1)) => (821785 : ℕ) * (10 : ℝ) ^ (-5 : Int)) :=
        ⟨by simp [hnames], fun i => by rw [List.getElem_replicate]; exact Exact.val_ofDec _ _⟩
      obtain ⟨r, h1, _⟩ := h4.res _ _ hx 0
      exact ⟨r, h1⟩
    obtain ⟨s, hs⟩ := hprobe
    have hnew : RootFinder.new (eval cfg (m + 4)) (eqs.map residualExpr) ctx names =
        .ok ⟨eqs.map residualExpr, [List.range (n + 1)], ctx, names⟩ := by
      have hset : names.foldl (fun c i => c.addVar ⟨i, [.scalar (FArith.ofDec 821785 (-5))]⟩) ctx
          = setVars ctx names (List.replicate names.length (FArith.ofDec 821785 (-5) : F)) := by
        unfold setVars
        have hz : names.zip (List.replicate names.length (FArith.ofDec 821785 (-5) : F))
            = names.map fun i => (i, FArith.ofDec 821785 (-5)) := by
          apply List.ext_getElem
          · simp
          · intro i h1 h2
            simp
        rw [hz, List.foldl_map]
      have hrem : names.foldl (fun c i => c.removeVar i) (setVars ctx names (List.replicate names.length (FArith.ofDec 821785 (-5) : F))) = ctx := by
        have ha : Assigns names (assigned names (List.replicate names.length (FArith.ofDec 821785 (-5) : F))) _ := ⟨rfl, by simp⟩
        have i0 : Inv ctx names ctx := Inv.refl (fun v hv hn => hfresh _ hn v hv rfl)
        have i1 := i0.addVars_inv ha.names
        rw [← ha.setVars]
        have := i1.remove_eq ha.names
        unfold removeVars at this
        conv at this => lhs; rw [← List.foldl_map (f := fun v : Variable F => v.name) (g := fun c i => Context.removeVar c i)]
        rw [ha.names] at this
        exact this
      unfold RootFinder.new
      rw [if_neg (by simp [heqs]), if_neg (by simp [AST.isOperation, residualExpr]), if_neg, if_neg (by simp [heqs, hnames])]
      · dsimp only
        rw [hset, idx_lt (by simp [heqs]), ok_bind, hs, ok_bind]
        simp only [List.getElem?_cons_zero, Out.unwrap, ok_bind, hrem]
        rw [if_neg (by simp [heqs, hnames])]
        simp [heqs]
      · rw [List.any_eq_true]
        rintro ⟨x, hx, hc⟩
        simp only [List.contains_eq_mem, List.mem_map, decide_eq_true_eq] at hc
        obtain ⟨v, hv, hvx⟩ := hc
        exact hfresh x hx v hv hvx
    have hsplit : (splitExprs (List.range (n + 1)) 0 [] (eqs.map residualExpr) : Out EvalError _) = .ok (eqs.map residualExpr, []) := by
      have := splitExprs_all (ε := EvalError) 0 [] (eqs.map residualExpr)
      simpa [heqs, List.range_eq_range'] using this
    show evalRec cfg (m + 4 + 1) (.equation eqs names) ctx [] = _
    rw [evalRec.eq_def]
    simp only [solveEquations]
    have hev : (fun a c => evalRec cfg (m + 4) a c []) = (eval cfg (m + 4) : Evaluator F) := rfl
    have hres : (eqs.map fun i => AST.simple .sub i.1 i.2) = eqs.map residualExpr := rfl
    rw [hev, hres, hnew, ok_bind]
    simp only [RootFinder.findRoots, findRootsLoop, hsplit, ok_bind, hr1, hclean]
    rfl

/-! ## Examples -/

theorem findVar_setVars_one (ctx : Context F) (x : Str) (a : F) : (setVars ctx [x] [a]).findVar x = some [.scalar a] := by
  have hnone : ctx.vars.find? (fun _ => false) = none := by simp [List.find?_eq_none]
  simp [setVars, Context.addVar, Context.findVar, List.find?_append, List.find?_filter, hnone]

theorem one_of_map {l : List F} {y : ℝ} (h : l.map Exact.val = [some y]) : ∃ a, l = [a] ∧ Exact.val a = some y := by
  cases l with
  | nil => cases h
  | cons a l =>
    simp only [List.map_cons, List.cons.injEq, List.map_eq_nil_iff] at h
    exact ⟨a, by rw [h.2], h.1⟩

/-- C48 applies to `eq(2*x=6, x)`: the one solution is 3. -/
example (cfg : Cfg) : ∃ v : Value F, Finishes (fun n => eval cfg n (.equation
      [(.simple .mult (.scalar (FArith.ofInt 2)) (.variable ['x']), .scalar (FArith.ofInt 6))] [['x']]) ⟨[], []⟩) (.ok [v]) ∧ IsScalar v (3 : ℝ) := by
  have h2 : Exact.val (FArith.ofInt 2 : F) = some (2 : ℝ) := by simpa using Exact.val_ofInt (F := F) (K := ℝ) 2
  have h6 : Exact.val (FArith.ofInt 6 : F) = some (6 : ℝ) := by simpa using Exact.val_ofInt (F := F) (K := ℝ) 6
  refine Exists.elim (C48_eq_solves (F := F) cfg ⟨[], []⟩
    [(.simple .mult (.scalar (FArith.ofInt 2)) (.variable ['x']), .scalar (FArith.ofInt 6))] [['x']] (n := 0)
    (fun _ _ => 2) (fun _ => 6) rfl rfl (by simp) (by simp) ?_ ?_ ?_) fun l ⟨X, h, hl, hX⟩ => ?_
  rotate_left 3
  · have hX0 : X 0 = 3 := by
      have := congrFun hX 0
      simp only [Matrix.mulVec, dotProduct, Fin.sum_univ_succ, Fin.sum_univ_zero] at this
      linarith
    simp only [List.ofFn_succ, List.ofFn_zero, hX0] at hl
    obtain ⟨a, rfl, ha⟩ := one_of_map hl
    exact ⟨_, h, a, rfl, ha⟩
  · refine ⟨3, fun l x hx i e he => ?_⟩
    have hi : i = 0 := Fin.ext (by have := i.2; simp)
    subst hi
    simp only [Fin.val_zero, List.getElem?_cons_zero, Option.some.injEq] at he
    subst he
    simp only [List.ofFn_succ, List.ofFn_zero] at hx
    obtain ⟨a, rfl, ha⟩ := one_of_map hx
    · refine ⟨FArith.add (FArith.mul (FArith.ofInt 2) a) (FArith.mul (FArith.ofInt 6) (FArith.ofInt (-1))), ?_, ?_⟩
      · simp only [eval, residualExpr, evalRec, findVar_setVars_one, ok_bind, applyAll_single]
        rfl
      · rw [Exact.val_add (Exact.val_mul h2 ha) (Exact.val_mul h6 val_minus_one)]
        simp [Matrix.mulVec, dotProduct]
        ring
  · intro k hk
    rcases (by omega : k = 0 ∨ k = 1) with rfl | rfl
    · simp
    · simp [Matrix.det_unique, Matrix.submatrix]
  · intro j _ _
    by_cases hj : j = 3
    · left
      subst hj
      funext i
      simp [Matrix.mulVec, dotProduct]
      norm_num
    · right
      refine ⟨0, ?_⟩
      have h1 : (10 : ℝ) ^ (-(cfg.prec : Int)) ≤ 1 := by
        rw [zpow_neg, zpow_natCast]
        exact inv_le_one_of_one_le₀ (one_le_pow₀ (by norm_num))
      have h3 : (1 : ℝ) ≤ |(2 * j - 6 : ℝ)| := by
        have : (1 : Int) ≤ |2 * j - 6| := by
          apply Int.one_le_abs
          omega
        exact_mod_cast this
      simpa [Matrix.mulVec, dotProduct] using h1.trans h3

/-- C45 and C46 apply to it as well: the solutions are finite, and substituting them leaves a small difference. -/
example : ∃ vs : List (Value (Ext ℝ)), vs ≠ [] ∧ Finishes (fun n => eval Cfg.default n (.equation
    [(.variable ['x'], .scalar (FArith.ofInt 6))] [['x']]) ⟨[], []⟩) (.ok vs) := by
  have h6 : Exact.val (FArith.ofInt 6 : Ext ℝ) = some (6 : ℝ) := by simpa using Exact.val_ofInt (F := Ext ℝ) (K := ℝ) 6
  refine Exists.elim (C48_eq_solves (F := Ext ℝ) Cfg.default ⟨[], []⟩ [(.variable ['x'], .scalar (FArith.ofInt 6))] [['x']] (n := 0)
    (fun _ _ => 1) (fun _ => 6) rfl rfl (by simp) (by simp) ?_ ?_ ?_) fun l ⟨X, h, _, _⟩ => ?_
  rotate_left 3
  · exact ⟨_, by simp, h⟩
  · refine ⟨3, fun l x hx i e he => ?_⟩
    have hi : i = 0 := Fin.ext (by have := i.2; simp)
    subst hi
    simp only [Fin.val_zero, List.getElem?_cons_zero, Option.some.injEq] at he
    subst he
    simp only [List.ofFn_succ, List.ofFn_zero] at hx
    obtain ⟨a, rfl, ha⟩ := one_of_map hx
    · refine ⟨FArith.add a (FArith.mul (FArith.ofInt 6) (FArith.ofInt (-1))), ?_, ?_⟩
      · simp only [eval, residualExpr, evalRec, findVar_setVars_one, ok_bind, applyAll_single]
        rfl
      · rw [Exact.val_add ha (Exact.val_mul h6 val_minus_one)]
        simp [Matrix.mulVec, dotProduct]
        ring
  · intro k hk
    rcases (by omega : k = 0 ∨ k = 1) with rfl | rfl
    · simp
    · simp [Matrix.det_unique, Matrix.submatrix]
  · intro j _ _
    by_cases hj : j = 6
    · left
      subst hj
      funext i
      simp [Matrix.mulVec, dotProduct]
    · right
      refine ⟨0, ?_⟩
      have h3 : (1 : ℝ) ≤ |(j - 6 : ℝ)| := by
        have : (1 : Int) ≤ |j - 6| := by
          apply Int.one_le_abs
          omega
        exact_mod_cast this
      have h1 : (10 : ℝ) ^ (-(Cfg.default.prec : Int)) ≤ 1 := by norm_num [Cfg.default]
      simpa [Matrix.mulVec, dotProduct] using h1.trans h3

end
end MUL
