import Verif.Proofs.Roots
import Verif.Proofs.EvalTerm
import Verif.Num.Real
import Verif.Num.Rat
import Mathlib.Algebra.BigOperators.Group.List.Basic
/-!
# Equations: C45, C46, C47
-/

namespace MUL
open Out Spec

set_option linter.unusedSectionVars false

section
variable {F : Type} [FNum F]

/-! ## C45 -/

/-- C45: every solution reported by `eq(...)` lists one number per search variable, and substituting these numbers for the
search variables solves the equations: the Euclidean length of the residuals is below `10^-PREC`, for as many equations as there
are search variables and again for all the other equations. Any arithmetic in which the whole numbers from -1000 to 999 are finite. -/
theorem C45_roots (cfg : Cfg) (eqs : List (AST F × AST F)) (names : List Str) (ctx : Context F) (vs : List (Value F))
    (hstart : ∀ j : Int, -1000 ≤ j → j < 1000 → IsFinite (FArith.ofInt j : F))
    (h : Finishes (fun n => eval cfg n (.equation eqs names) ctx) (.ok vs)) :
    ∀ v ∈ vs, ∃ l, v = asSolution l ∧ l.length = names.length ∧ Solves cfg ctx eqs names l := by
  obtain ⟨_, n, hn⟩ := h
  have hjs : ∀ j ∈ startValues, IsFinite (FArith.ofInt j : F) := by
    intro j hj
    unfold startValues at hj
    obtain ⟨k, hk, rfl⟩ := List.mem_map.1 hj
    rw [List.mem_range] at hk
    exact hstart _ (by omega) (by omega)
  rcases equation_spec hjs hn with rfl | ⟨search, check, results, hp, hl, hcl, m, hacc⟩
  · simp
  · intro v hv
    obtain ⟨l, rfl, ha⟩ := hacc v (cleanResults_sub hcl v hv)
    obtain ⟨rs, hrs, hs⟩ := ha.searched
    obtain ⟨rc, hrc, hc⟩ := ha.checked
    have hsmall : ∀ rs : List F, normSmall cfg rs = true → Negligible cfg rs := by
      intro rs h
      unfold normSmall at h
      rw [Bool.and_eq_true] at h
      exact ⟨h.2, h.1⟩
    refine ⟨l, rfl, ha.len, search, check, rs, rc, hp, hl, evalScalars_residuals hrs, hsmall _ hs,
      evalScalars_residuals hrc, ?_⟩
    rcases hc with rfl | hc
    · have := evalScalars_residuals hrc
      unfold Residuals at this
      rw [List.forall₂_nil_right_iff] at this
      exact Or.inl this
    · exact Or.inr (hsmall _ hc)

/-! ## C46 -/

/-- C46: solutions are scalars (one search variable) or vectors with one entry per search variable, and contain no NaN or infinity. -/
theorem C46_shape (cfg : Cfg) (eqs : List (AST F × AST F)) (names : List Str) (ctx : Context F) (vs : List (Value F))
    (hstart : ∀ j : Int, -1000 ≤ j → j < 1000 → IsFinite (FArith.ofInt j : F))
    (h : Finishes (fun n => eval cfg n (.equation eqs names) ctx) (.ok vs)) :
    ∀ v ∈ vs, (names.length = 1 ∧ ∃ s, v = .scalar s ∧ IsFinite s) ∨
      (names.length ≠ 1 ∧ ∃ l, v = .vector l ∧ l.length = names.length ∧ ∀ s ∈ l, IsFinite s) := by
  obtain ⟨_, n, hn⟩ := h
  have hjs : ∀ j ∈ startValues, IsFinite (FArith.ofInt j : F) := by
    intro j hj
    unfold startValues at hj
    obtain ⟨k, hk, rfl⟩ := List.mem_map.1 hj
    rw [List.mem_range] at hk
    exact hstart _ (by omega) (by omega)
  rcases equation_spec hjs hn with rfl | ⟨search, check, results, hp, hl, hcl, m, hacc⟩
  · simp
  · intro v hv
    obtain ⟨l, rfl, ha⟩ := hacc v (cleanResults_sub hcl v hv)
    have hlen := ha.len
    have hfin := ha.fin
    clear ha
    match l, hlen, hfin with
    | [], hlen, hfin => exact Or.inr ⟨by simp at hlen; omega, [], rfl, hlen, by simp⟩
    | [s], hlen, hfin => exact Or.inl ⟨by simp at hlen; omega, s, rfl, hfin s (by simp)⟩
    | a :: b :: l, hlen, hfin => exact Or.inr ⟨by simp at hlen; omega, _, rfl, hlen, hfin⟩

/-- C46: there are at most ten solutions. -/
theorem C46_at_most_ten (cfg : Cfg) (eqs : List (AST F × AST F)) (names : List Str) (ctx : Context F) (vs : List (Value F))
    (hstart : ∀ j : Int, -1000 ≤ j → j < 1000 → IsFinite (FArith.ofInt j : F))
    (h : Finishes (fun n => eval cfg n (.equation eqs names) ctx) (.ok vs)) : vs.length ≤ 10 := by
  obtain ⟨_, n, hn⟩ := h
  have hjs : ∀ j ∈ startValues, IsFinite (FArith.ofInt j : F) := by
    intro j hj
    unfold startValues at hj
    obtain ⟨k, hk, rfl⟩ := List.mem_map.1 hj
    rw [List.mem_range] at hk
    exact hstart _ (by omega) (by omega)
  rcases equation_spec hjs hn with rfl | ⟨search, check, results, hp, hl, hcl, m, hacc⟩
  · simp
  · refine cleanResults_length hcl fun v hv m hm => ?_
    obtain ⟨l, hl, _⟩ := hacc v hv
    rw [hm] at hl
    match l, hl with
    | [], hl => cases hl
    | [s], hl => cases hl
    | a :: b :: l, hl => cases hl

/-- C46: the solutions are pairwise different, even after rounding them to `PREC-2` decimals. Any arithmetic whose `==` is
symmetric. -/
theorem C46_distinct (cfg : Cfg) (eqs : List (AST F × AST F)) (names : List Str) (ctx : Context F) (vs : List (Value F))
    (hstart : ∀ j : Int, -1000 ≤ j → j < 1000 → IsFinite (FArith.ofInt j : F))
    (hsym : ∀ a b : F, FArith.beq a b = FArith.beq b a)
    (h : Finishes (fun n => eval cfg n (.equation eqs names) ctx) (.ok vs)) :
    vs.Pairwise fun v w => Value.beq (v.round (cfg.prec - 2)) (w.round (cfg.prec - 2)) = false := by
  obtain ⟨_, n, hn⟩ := h
  have hjs : ∀ j ∈ startValues, IsFinite (FArith.ofInt j : F) := by
    intro j hj
    unfold startValues at hj
    obtain ⟨k, hk, rfl⟩ := List.mem_map.1 hj
    rw [List.mem_range] at hk
    exact hstart _ (by omega) (by omega)
  rcases equation_spec hjs hn with rfl | ⟨search, check, results, hp, hl, hcl, m, hacc⟩
  · exact List.Pairwise.nil
  · exact cleanResults_distinct hsym hcl

/-! ## C47 -/

/-- C47: without an equation. -/
theorem C47_no_equation (cfg : Cfg) (names : List Str) (ctx : Context F) :
    Finishes (fun n => eval cfg n (.equation [] names) ctx) (.err .nothingToDoEq) :=
  ⟨by simp, 1, rfl⟩

private theorem not_operation (eqs : List (AST F × AST F)) :
    ((eqs.map fun i => AST.simple .sub i.1 i.2).any fun e => !e.isOperation) = false := by
  simp [AST.isOperation]

/-- C47: a search variable that already exists. This is reported whatever else is wrong with the equations. -/
theorem C47_search_var_exists (cfg : Cfg) (eqs : List (AST F × AST F)) (names : List Str) (ctx : Context F) (hne : eqs ≠ [])
    (h : ∃ x ∈ names, ∃ v ∈ ctx.vars, v.name = x) :
    Finishes (fun n => eval cfg n (.equation eqs names) ctx) (.err .searchVarsInVars) := by
  refine ⟨by simp, 1, ?_⟩
  beta_reduce
  obtain ⟨x, hx, v, hv, hvx⟩ := h
  unfold eval
  rw [evalRec.eq_def]
  simp only [solveEquations]
  unfold RootFinder.new
  rw [if_neg (by simpa using hne), if_neg (by rw [not_operation]; simp), if_pos]
  · rfl
  · rw [List.any_eq_true]
    exact ⟨x, hx, by simpa using ⟨v, hv, hvx⟩⟩

/-- C47: more search variables than equations. -/
theorem C47_underdetermined (cfg : Cfg) (eqs : List (AST F × AST F)) (names : List Str) (ctx : Context F) (hne : eqs ≠ [])
    (h : ∀ x ∈ names, ∀ v ∈ ctx.vars, v.name ≠ x) (hlen : eqs.length < names.length) :
    Finishes (fun n => eval cfg n (.equation eqs names) ctx) (.err .underdeterminedSystem) := by
  refine ⟨by simp, 1, ?_⟩
  beta_reduce
  unfold eval
  rw [evalRec.eq_def]
  simp only [solveEquations]
  unfold RootFinder.new
  rw [if_neg (by simpa using hne), if_neg (by rw [not_operation]; simp), if_neg, if_pos (by simpa using hlen)]
  · rfl
  · rw [List.any_eq_true]
    rintro ⟨x, hx, hc⟩
    simp only [List.contains_eq_mem, List.mem_map, decide_eq_true_eq] at hc
    obtain ⟨v, hv, hvx⟩ := hc
    exact h x hx v hv hvx

private theorem new_probe {ev : Evaluator F} (e : AST F × AST F) (eqs : List (AST F × AST F)) (names : List Str) (ctx : Context F)
    (h : ∀ x ∈ names, ∀ v ∈ ctx.vars, v.name ≠ x) (hlen : names.length ≤ eqs.length + 1) :
    ∃ g : List (Value F) → Out EvalError (RootFinder F),
      RootFinder.new ev ((e :: eqs).map fun i => AST.simple .sub i.1 i.2) ctx names =
        (ev (residualExpr e) (setVars ctx names (List.replicate names.length (FArith.ofDec 821785 (-5))))) >>= g ∧
      (∀ v rest, g (.vector v :: rest) = .err .vectorInEq) ∧ (∀ m rest, g (.matrix m :: rest) = .err .matrixInEq) ∧
      g [] = .panic := by
  have hset : names.foldl (fun c i => c.addVar ⟨i, [.scalar (FArith.ofDec 821785 (-5))]⟩) ctx
      = setVars ctx names (List.replicate names.length (FArith.ofDec 821785 (-5))) := by
    unfold setVars
    have hz : names.zip (List.replicate names.length (FArith.ofDec 821785 (-5) : F))
        = names.map fun i => (i, FArith.ofDec 821785 (-5)) := by
      apply List.ext_getElem
      · simp
      · intro i h1 h2
        simp
    rw [hz, List.foldl_map]
  unfold RootFinder.new
  rw [if_neg (by simp), if_neg (by rw [not_operation]; simp), if_neg, if_neg (by simpa using hlen)]
  · simp only [List.map_cons, idx, List.getElem?_cons_zero, ok_bind, hset]
    exact ⟨_, rfl, fun _ _ => rfl, fun _ _ => rfl, rfl⟩
  · rw [List.any_eq_true]
    rintro ⟨x, hx, hc⟩
    simp only [List.contains_eq_mem, List.mem_map, decide_eq_true_eq] at hc
    obtain ⟨v, hv, hvx⟩ := hc
    exact h x hx v hv hvx

/-- C47: a first equation whose sides are vectors or matrices (tested with 8.21785 for the search variables) is rejected with
`VectorInEq`/`MatrixInEq`; if the test evaluation fails, its error is reported. -/
theorem C47_first_equation (cfg : Cfg) (e : AST F × AST F) (eqs : List (AST F × AST F)) (names : List Str) (ctx : Context F)
    (h : ∀ x ∈ names, ∀ v ∈ ctx.vars, v.name ≠ x) (hlen : names.length ≤ eqs.length + 1)
    (r : Out EvalError (List (Value F)))
    (hr : Finishes (fun n => eval cfg n (residualExpr e)
      (setVars ctx names (List.replicate names.length (FArith.ofDec 821785 (-5))))) r) :
    (∀ v rest, r = .ok (.vector v :: rest) →
      Finishes (fun n => eval cfg n (.equation (e :: eqs) names) ctx) (.err .vectorInEq)) ∧
    (∀ m rest, r = .ok (.matrix m :: rest) →
      Finishes (fun n => eval cfg n (.equation (e :: eqs) names) ctx) (.err .matrixInEq)) ∧
    (∀ err, r = .err err → Finishes (fun n => eval cfg n (.equation (e :: eqs) names) ctx) (.err err)) ∧
    (r = .ok [] ∨ r = .panic → Finishes (fun n => eval cfg n (.equation (e :: eqs) names) ctx) .panic) := by
  obtain ⟨_, n, hn⟩ := hr
  obtain ⟨g, g4, g1, g2, g3⟩ := new_probe (ev := fun a c => evalRec cfg n a c []) e eqs names ctx h hlen
  have key : eval cfg (n + 1) (.equation (e :: eqs) names) ctx = (r >>= g) >>= fun rf => rf.findRoots cfg (fun a c => evalRec cfg n a c []) := by
    rw [← hn]
    show evalRec cfg (n + 1) _ _ _ = _
    rw [evalRec.eq_def]
    simp only [solveEquations]
    rw [g4]
    rfl
  refine ⟨?_, ?_, ?_, ?_⟩
  · rintro v rest rfl
    exact ⟨by simp, n + 1, by simp only [key, ok_bind, g1]; rfl⟩
  · rintro v rest rfl
    exact ⟨by simp, n + 1, by simp only [key, ok_bind, g2]; rfl⟩
  · rintro err rfl
    exact ⟨by simp, n + 1, by simp only [key]; rfl⟩
  · rintro (rfl | rfl)
    · exact ⟨by simp, n + 1, by simp only [key, ok_bind, g3]; rfl⟩
    · exact ⟨by simp, n + 1, by simp only [key]; rfl⟩

end

/-! ## C45 in exact arithmetic -/

section
variable {F : Type} [FNum F] [ExactReal F]

theorem start_finite (F K : Type) [FNum F] [Field K] [LinearOrder K] [IsStrictOrderedRing K] [FloorRing K] [Exact F K] (j : Int) :
    IsFinite (FArith.ofInt j : F) := by
  have := Exact.finite_iff (F := F) (K := K) (FArith.ofInt j)
  rw [Exact.val_ofInt, Option.isNone_some, Bool.or_eq_false_iff] at this
  exact ⟨this.2, this.1⟩

theorem sumSq_val (rs : List F) (s : F) (s' : ℝ) (hs : Exact.val s = some s') (hs0 : 0 ≤ s')
    (h : Exact.val (rs.foldl (fun s r => FArith.add s (FArith.powi r 2)) s) = some t) :
    s' ≤ t ∧ ∀ r ∈ rs, ∃ x : ℝ, Exact.val r = some x ∧ x ^ 2 ≤ t := by
  induction rs generalizing s s' with
  | nil =>
    simp only [List.foldl_nil] at h
    rw [hs] at h
    injection h with h
    exact ⟨h.le, by simp⟩
  | cons r rs ih =>
    rw [List.foldl_cons] at h
    cases hr : (Exact.val r : Option ℝ) with
    | none =>
      exfalso
      have hp := Exact.powi_none (n := 2) hr (by norm_num)
      have : ∀ (rs : List F) (s : F), (Exact.val s : Option ℝ) = none →
          (Exact.val (rs.foldl (fun s r => FArith.add s (FArith.powi r 2)) s) : Option ℝ) = none := by
        intro rs
        induction rs with
        | nil => exact fun s hs => hs
        | cons r rs ih => exact fun s hs => ih _ (Exact.add_none (Or.inl hs))
      rw [this rs _ (Exact.add_none (Or.inr hp))] at h
      cases h
    | some x =>
      have hx : Exact.val (FArith.powi r 2) = some (x ^ 2) := by
        have := Exact.val_powi (n := 2) hr (Or.inl (by norm_num))
        rw [this]
        norm_cast
      obtain ⟨h1, h2⟩ := ih _ _ (Exact.val_add hs hx) (by positivity) h
      have := sq_nonneg x
      refine ⟨by linarith, ?_⟩
      intro q hq
      rcases List.mem_cons.1 hq with rfl | hq
      · exact ⟨x, hr, by linarith⟩
      · exact h2 q hq

theorem negligible_val {cfg : Cfg} {rs : List F} (h : Negligible cfg rs) :
    ∀ r ∈ rs, ∃ x : ℝ, Exact.val r = some x ∧ |x| < 10 ^ (-(cfg.prec : Int)) := by
  have heps : Exact.val (FArith.powi (FArith.ofInt 10 : F) (-(cfg.prec : Int))) = some ((10 : ℝ) ^ (-(cfg.prec : Int))) := by
    have := Exact.val_ofInt (F := F) (K := ℝ) 10
    rw [Exact.val_powi this (Or.inr (by norm_num))]
    norm_num
  have hneg : Exact.val (FArith.neg (FArith.powi (FArith.ofInt 10 : F) (-(cfg.prec : Int)))) = some (-(10 : ℝ) ^ (-(cfg.prec : Int))) := by
    rw [Exact.val_neg, heps]
    rfl
  obtain ⟨h1, h2⟩ := h
  have hz : Exact.val (FArith.ofInt 0 : F) = some (0 : ℝ) := by simpa using Exact.val_ofInt (F := F) (K := ℝ) 0
  unfold residualLength at h1 h2
  cases ht : (Exact.val (rs.foldl (fun s r => FArith.add s (FArith.powi r 2)) (FArith.ofInt 0)) : Option ℝ) with
  | none =>
    rw [Exact.lt_none (ExactReal.sqrt_none ht) hneg heps h2] at h1
    cases h1
  | some t =>
    obtain ⟨ht0, hall⟩ := sumSq_val rs _ _ hz le_rfl ht
    rw [Exact.lt_val (ExactReal.val_sqrt ht ht0) heps] at h1
    have h1 : Real.sqrt t < 10 ^ (-(cfg.prec : Int)) := by simpa using h1
    intro r hr
    obtain ⟨x, hx, hxt⟩ := hall r hr
    refine ⟨x, hx, lt_of_le_of_lt ?_ h1⟩
    rw [← Real.sqrt_sq_eq_abs]
    exact Real.sqrt_le_sqrt hxt

/-- C45 in exact arithmetic: for every solution and every equation, the two sides differ by less than `10^-PREC` at the solution
(the first value of the difference, if the sides have several). -/
theorem C45_exact (cfg : Cfg) (eqs : List (AST F × AST F)) (names : List Str) (ctx : Context F) (vs : List (Value F))
    (h : Finishes (fun n => eval cfg n (.equation eqs names) ctx) (.ok vs)) :
    ∀ v ∈ vs, ∃ l, v = asSolution l ∧ l.length = names.length ∧
      ∀ e ∈ eqs, ∃ r rest, Finishes (fun n => eval cfg n (.simple .sub e.1 e.2) (setVars ctx names l)) (.ok (.scalar r :: rest)) ∧
        ∃ x : ℝ, Exact.val r = some x ∧ |x| < 10 ^ (-(cfg.prec : Int)) := by
  intro v hv
  obtain ⟨l, rfl, hl, se, ch, rs, rc, hp, _, h1, h2, h3, h4⟩ :=
    C45_roots cfg eqs names ctx vs (fun j _ _ => start_finite F ℝ j) h v hv
  refine ⟨l, rfl, hl, fun e he => ?_⟩
  have key : ∀ {es : List (AST F)} {rs : List F}, Residuals cfg ctx names l es rs →
      (∀ r ∈ rs, ∃ x : ℝ, Exact.val r = some x ∧ |x| < 10 ^ (-(cfg.prec : Int))) → ∀ b ∈ es, ∃ r rest,
      Finishes (fun n => eval cfg n b (setVars ctx names l)) (.ok (.scalar r :: rest)) ∧
        ∃ x : ℝ, Exact.val r = some x ∧ |x| < 10 ^ (-(cfg.prec : Int)) := by
    intro es rs hr
    induction hr with
    | nil => simp
    | cons hb hs ih =>
      intro hall b hb'
      rcases List.mem_cons.1 hb' with rfl | hb'
      · obtain ⟨rest, hrest⟩ := hb
        exact ⟨_, rest, hrest, hall _ (by simp)⟩
      · exact ih (fun r hr => hall r (by simp [hr])) b hb'
  have hmem : residualExpr e ∈ se ++ ch := hp.mem_iff.2 (List.mem_map.2 ⟨e, he, rfl⟩)
  rcases List.mem_append.1 hmem with hm | hm
  · exact key h1 (negligible_val h2) _ hm
  · rcases h4 with rfl | h4
    · simp at hm
    · exact key h3 (negligible_val h4) _ hm

end

/-! ## Examples -/

/-- C47: `eq(x=1, y=2, x, y)` where `y` already exists; `eq(x=1, x, y)`; `eq([1]=[2], x)`. -/
example : eval Cfg.default 5 (.equation [(.variable ['x'], .scalar (.fin 1 : Q)), (.variable ['y'], .scalar (.fin 2))] [['x'], ['y']])
    ⟨[⟨['y'], [.scalar (.fin 3)]⟩], []⟩ = .err .searchVarsInVars := by decide +kernel
example : eval Cfg.default 5 (.equation [(.variable ['x'], .scalar (.fin 1 : Q))] [['x'], ['y']]) ⟨[], []⟩ = .err .underdeterminedSystem := by
  decide +kernel
example : eval Cfg.default 5 (.equation [(.vector [.scalar (.fin 1 : Q)], .vector [.scalar (.fin 2)])] [['x']]) ⟨[], []⟩ = .err .vectorInEq := by
  decide +kernel

end MUL
