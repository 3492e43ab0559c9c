import Verif.Proofs.NewtonRoots
import Verif.Proofs.FloatDeriv
import Mathlib.Tactic.Linarith
/-!
# The search for a solution in binary64 arithmetic
-/

set_option linter.unusedSectionVars false

namespace MUL
open Out Spec

/-- The computed slope: `h` is the step, `z` the second point, `y` and `y'` the computed values, `N` and `q` the rounded difference and
quotient. -/
theorem slope_bounds {g : ℝ → ℝ} {a b s m H ε x h z y y' N q : ℝ} (hs : Slopes g a b m (19 / 10 * m)) (hm : 0 < m) (hH : 0 < H)
    (hh : |h - H| ≤ H / 2 ^ 19) (hxs : |x - s| ≤ 1 / 2) (hxa : a ≤ x) (hzb : x + 2 * H ≤ b) (hz : |z - x - h| ≤ (|x| + h) / 2 ^ 53)
    (hy : |y - g x| ≤ ε) (hy' : |y' - g z| ≤ ε) (hN : |N - (y' - y)| ≤ |y' - y| / 2 ^ 53) (hq : |q - N / h| ≤ roundErr |N / h|)
    (hε : ε ≤ m * H / 400) (hsH : |s| + 1 ≤ 2 ^ 46 * H) (hmin : 1 / 10 ^ 23 ≤ m) :
    98 / 100 * m ≤ q ∧ q ≤ 193 / 100 * m ∧ |y' - y| ≤ 193 / 100 * (m * H) ∧ |N / h| ≤ 193 / 100 * m := by
  obtain ⟨l1, l2⟩ := abs_le.1 hh
  obtain ⟨z1, z2⟩ := abs_le.1 hz
  obtain ⟨y1, y2⟩ := abs_le.1 hy
  obtain ⟨w1, w2⟩ := abs_le.1 hy'
  have hx : |x| ≤ |s| + 1 / 2 := by
    calc |x| = |(x - s) + s| := by ring_nf
      _ ≤ |x - s| + |s| := abs_add_le _ _
      _ ≤ _ := by linarith
  have hh0 : 0 < h := by linarith
  have hzl : 99 / 100 * H ≤ z - x := by linarith
  have hzu : z - x ≤ 101 / 100 * H := by linarith
  obtain ⟨s1, s2⟩ := hs x z hxa (by linarith) (by linarith)
  have hmH : 0 < m * H := by positivity
  have t1 := mul_le_mul_of_nonneg_left hzl hm.le
  have t2 := mul_le_mul_of_nonneg_left hzu hm.le
  have d1 : 985 / 1000 * (m * H) ≤ y' - y := by linarith
  have d2 : y' - y ≤ 1924 / 1000 * (m * H) := by linarith
  have d0 : 0 < y' - y := by linarith
  rw [abs_of_pos d0] at hN
  obtain ⟨n1, n2⟩ := abs_le.1 hN
  have n3 : 9849 / 10000 * (m * H) ≤ N := by linarith
  have n4 : N ≤ 19241 / 10000 * (m * H) := by linarith
  have m1 := mul_le_mul_of_nonneg_left l1 hm.le
  have m2 := mul_le_mul_of_nonneg_left l2 hm.le
  have q1 : 984 / 1000 * m ≤ N / h := by
    rw [le_div_iff₀ hh0]
    linarith
  have q2 : N / h ≤ 1925 / 1000 * m := by
    rw [div_le_iff₀ hh0]
    linarith
  have q0 : 0 < N / h := by linarith
  have hr : roundErr |N / h| ≤ 1 / 1000 * m := by
    rw [abs_of_pos q0]
    unfold roundErr
    refine max_le (by linarith) ?_
    have : (1 : ℝ) / 2 ^ 1075 ≤ 1 / 2 ^ 100 := one_div_le_one_div_of_le (by positivity) (pow_le_pow_right₀ (by norm_num) (by norm_num))
    refine this.trans (le_trans ?_ (mul_le_mul_of_nonneg_left hmin (by norm_num)))
    norm_num
  obtain ⟨r1, r2⟩ := abs_le.1 (hq.trans hr)
  refine ⟨by linarith, by linarith, ?_, ?_⟩
  · rw [abs_of_pos d0]; linarith
  · rw [abs_of_pos q0]; linarith

/-- One step of the search: `q` is the computed slope, `t` the computed change, `x'` the next point. -/
theorem step_contracts {g : ℝ → ℝ} {a b s m ε x y q t x' : ℝ} (hs : Slopes g a b m (19 / 10 * m)) (h0 : g s = 0) (hm : 0 < m)
    (ha : a ≤ s) (hb : s ≤ b) (hxa : a ≤ x) (hxb : x ≤ b) (hxs : |x - s| ≤ 1 / 2) (hy : |y - g x| ≤ ε) (hq1 : 98 / 100 * m ≤ q) (hq2 : q ≤ 193 / 100 * m)
    (ht : |t - -y / q| ≤ roundErr |-y / q|) (hx' : |x' - (t + x)| ≤ |t + x| / 2 ^ 53) (hε : ε ≤ m / 400) :
    |x' - s| ≤ 189 / 200 * |x - s| + (11 / 10 * (ε / m) + (|s| + 2) / 2 ^ 53) ∧ |-y / q| ≤ 1 ∧ |t| ≤ 2 := by
  have hq0 : 0 < q := by linarith
  obtain ⟨z1, z2, -, z4⟩ := slopes_zero hs h0 hm ha hb hxa hxb
  have hε0 : 0 ≤ ε := (abs_nonneg _).trans hy
  have hE : ε / m ≤ 1 / 400 := by rw [div_le_iff₀ hm]; linarith
  have hE0 : 0 ≤ ε / m := by positivity
  have hεm : ε = ε / m * m := by field_simp
  -- without rounding
  have k1 : |x - s - g x / q| ≤ 94 / 100 * |x - s| := by
    have e : x - s - g x / q = ((x - s) * q - g x) / q := by field_simp
    rw [e, abs_div, abs_of_pos hq0, div_le_iff₀ hq0]
    rcases le_total 0 (x - s) with hc | hc
    · obtain ⟨u1, u2⟩ := z1 hc
      have p1 := mul_le_mul_of_nonneg_left hq1 hc
      have p2 := mul_le_mul_of_nonneg_left hq2 hc
      rw [abs_of_nonneg hc, abs_le]
      constructor <;> nlinarith
    · obtain ⟨u1, u2⟩ := z2 hc
      have p1 := mul_le_mul_of_nonpos_left hq1 hc
      have p2 := mul_le_mul_of_nonpos_left hq2 hc
      rw [abs_of_nonpos hc, abs_le]
      constructor <;> nlinarith
  have k2 : |(g x - y) / q| ≤ 103 / 100 * (ε / m) := by
    rw [abs_div, abs_of_pos hq0, div_le_iff₀ hq0, abs_sub_comm]
    refine hy.trans ?_
    have := mul_le_mul_of_nonneg_left hq1 (by positivity : 0 ≤ 103 / 100 * (ε / m))
    have e : 103 / 100 * (ε / m) * (98 / 100 * m) = 103 * 98 / 10000 * ε := by field_simp; ring
    rw [e] at this
    linarith
  have k3 : |-y / q| ≤ 194 / 100 * |x - s| + 103 / 100 * (ε / m) := by
    have e : -y / q = (x - s - g x / q) - (x - s) + (g x - y) / q := by field_simp; ring
    rw [e]
    refine (abs_add_le _ _).trans (add_le_add ((abs_sub _ _).trans ?_) k2)
    linarith
  have k4 : |-y / q| ≤ 1 := by linarith
  have hr : roundErr |-y / q| ≤ |-y / q| / 2 ^ 53 + 1 / 2 ^ 100 := by
    unfold roundErr
    have : (1 : ℝ) / 2 ^ 1075 ≤ 1 / 2 ^ 100 := one_div_le_one_div_of_le (by positivity) (pow_le_pow_right₀ (by norm_num) (by norm_num))
    refine max_le ?_ ?_
    · linarith [show (0 : ℝ) ≤ 1 / 2 ^ 100 by positivity]
    · have := div_nonneg (abs_nonneg (-y / q)) (by positivity : (0 : ℝ) ≤ 2 ^ 53)
      linarith
  have k5 := ht.trans hr
  have k6 : |t| ≤ 2 := by
    calc |t| = |(t - -y / q) + -y / q| := by ring_nf
      _ ≤ |t - -y / q| + |-y / q| := abs_add_le _ _
      _ ≤ 2 := by
        have : (1 : ℝ) / 2 ^ 100 ≤ 1 / 2 := by norm_num
        linarith
  refine ⟨?_, k4, k6⟩
  have e : x' - s = (x' - (t + x)) + (t - -y / q) + ((x - s - g x / q) + (g x - y) / q) := by field_simp; ring
  have k7 : |t + x| ≤ |t| + |x| := abs_add_le _ _
  have k8 : |x| ≤ |s| + |x - s| := by
    calc |x| = |s + (x - s)| := by ring_nf
      _ ≤ _ := abs_add_le _ _
  have k9 : |t| ≤ |-y / q| + (|-y / q| / 2 ^ 53 + 1 / 2 ^ 100) := by
    calc |t| = |-y / q + (t - -y / q)| := by ring_nf
      _ ≤ _ := (abs_add_le _ _).trans (by linarith)
  calc |x' - s| ≤ |x' - (t + x)| + |t - -y / q| + |(x - s - g x / q) + (g x - y) / q| := by rw [e]; exact abs_add_three _ _ _
    _ ≤ |t + x| / 2 ^ 53 + (|-y / q| / 2 ^ 53 + 1 / 2 ^ 100) + (94 / 100 * |x - s| + 103 / 100 * (ε / m)) := by
        refine add_le_add (add_le_add hx' k5) ((abs_add_le _ _).trans (add_le_add k1 k2))
    _ ≤ _ := by
        have h1 := abs_nonneg (x - s)
        generalize |-y / q| = A at *
        have : (1 : ℝ) / 2 ^ 100 ≤ 1 / 2 ^ 53 / 100 := by norm_num
        generalize (1 : ℝ) / 2 ^ 100 = B at *
        linarith

/-! ## The procedure -/

section
variable {F : Type} [FNum F] {cfg : Cfg} {ctx : Context F} {x : Str} {e : AST F} {φ : F → F}

/-- The expression, as a function of the variable `x`, has the first value `φ`. -/
def ValuesOf (cfg : Cfg) (ctx : Context F) (x : Str) (e : AST F) (φ : F → F) : Prop :=
  ∀ a : F, ∃ rest, Finishes (fun n => eval cfg n e (ctx.addVar ⟨x, [.scalar a]⟩)) (.ok (.scalar (φ a) :: rest))

/-- One search, in terms of numbers of the library. -/
def searchFrom (cfg : Cfg) (φ : F → F) : Nat → F → Option F
  | 0, _ => none
  | k + 1, a =>
    if normSmall cfg [φ a] then some a
    else if (Value.scalar (stepOf cfg a (φ a) (φ (FArith.add a (stepH F cfg))))).isInfOrNan then none
    else searchFrom cfg φ k (stepOf cfg a (φ a) (φ (FArith.add a (stepH F cfg))))

theorem search_loop1 (hfresh : ∀ v ∈ ctx.vars, v.name ≠ x) (hf : ValuesOf cfg ctx x e φ) (k : Nat) (a : F) :
    Eventually fun n => solveLoop1 cfg (eval cfg n) [e] [] k [⟨x, [.scalar a]⟩] ctx =
      .ok ⟨(searchFrom cfg φ k a).map .scalar, false, ctx⟩ := by
  induction k generalizing a with
  | zero => exact ⟨0, fun n _ => rfl⟩
  | succ k ih =>
    obtain ⟨rest, h1⟩ := hf a
    obtain ⟨rest', h1'⟩ := hf (FArith.add a (stepH F cfg))
    have hev : Eventually fun n => newton cfg (eval cfg n) [e] [] [⟨x, [.scalar a]⟩] ctx =
      (if normSmall cfg [φ a] then .ok (.finishedX [⟨x, [.scalar a]⟩])
        else if (Value.scalar (stepOf cfg a (φ a) (φ (FArith.add a (stepH F cfg))))).isInfOrNan then .err .naNOrInf
        else .ok (.nextX [⟨x, [.scalar (stepOf cfg a (φ a) (φ (FArith.add a (stepH F cfg))))]⟩]), ctx) := by
      refine (Eventually.and (Eventually.and (finishes_from h1) (finishes_from h1')) (Eventually.ge 4)).mono ?_
      rintro n ⟨⟨h1, h2⟩, h3⟩
      obtain ⟨m, rfl⟩ := Nat.exists_eq_add_of_le' h3
      exact newton_one hfresh m a _ _ rest rest' h1 h2
    rw [searchFrom]
    by_cases hs : normSmall cfg [φ a] = true
    · rw [if_pos hs]
      refine hev.mono fun n hn => ?_
      unfold solveLoop1
      rw [hn, if_pos hs]
      rfl
    · rw [if_neg hs]
      by_cases hi : (Value.scalar (stepOf cfg a (φ a) (φ (FArith.add a (stepH F cfg))))).isInfOrNan = true
      · rw [if_pos hi]
        refine hev.mono fun n hn => ?_
        unfold solveLoop1
        rw [hn, if_neg hs, if_pos hi]
        rfl
      · rw [if_neg hi]
        refine (hev.and (ih (stepOf cfg a (φ a) (φ (FArith.add a (stepH F cfg)))))).mono fun n hn => ?_
        unfold solveLoop1
        rw [hn.1, if_neg hs, if_neg hi]
        exact hn.2

theorem search_loop0 (hfresh : ∀ v ∈ ctx.vars, v.name ≠ x) (hf : ValuesOf cfg ctx x e φ) (js : List Int) (acc : List F) :
    Eventually fun n => solveLoop0 cfg (eval cfg n) [e] [] [x] js ctx (acc.map .scalar) =
      .ok ((acc ++ js.filterMap fun j : Int => searchFrom cfg φ 1000 (FArith.ofInt j)).map .scalar) := by
  induction js generalizing acc with
  | nil => exact ⟨0, fun n _ => by simp [solveLoop0]⟩
  | cons j js ih =>
    have h1 := search_loop1 hfresh hf 1000 (FArith.ofInt j)
    cases hg : searchFrom cfg φ 1000 (FArith.ofInt j) with
    | none =>
      rw [hg] at h1
      rw [List.filterMap_cons_none (f := fun j : Int => searchFrom cfg φ 1000 (FArith.ofInt j)) hg]
      refine (h1.and (ih acc)).mono fun n hn => ?_
      unfold solveLoop0
      simp only [List.map_cons, List.map_nil, hn.1, ok_bind, Option.map_none, hn.2, Bool.false_eq_true, if_false]
    | some b =>
      rw [hg] at h1
      rw [List.filterMap_cons_some (f := fun j : Int => searchFrom cfg φ 1000 (FArith.ofInt j)) hg]
      refine (h1.and (ih (acc ++ [b]))).mono fun n hn => ?_
      unfold solveLoop0
      have := hn.2
      rw [List.map_append, List.append_assoc] at this
      simp only [List.map_cons, List.map_nil, hn.1, ok_bind, Option.map_some, Bool.false_eq_true, if_false]
      exact this

/-- Everything found from the start values. -/
def searchAll (cfg : Cfg) (φ : F → F) : List F := startValues.filterMap fun j : Int => searchFrom cfg φ 1000 (FArith.ofInt j)

/-- The whole procedure. -/
theorem search_equation (hfresh : ∀ v ∈ ctx.vars, v.name ≠ x) (l r : AST F) (hf : ValuesOf cfg ctx x (residualExpr (l, r)) φ) {vs : List F}
    (hc : (cleanResults cfg ((searchAll cfg φ).map .scalar) : Out EvalError _) = .ok (vs.map .scalar)) :
    Finishes (fun n => eval cfg n (.equation [(l, r)] [x]) ctx) (.ok (vs.map .scalar)) := by
  have hr2 := search_loop0 hfresh hf startValues []
  rw [List.nil_append, List.map_nil] at hr2
  obtain ⟨rest, hy⟩ := hf (FArith.ofDec 821785 (-5))
  have hinv : Inv ctx [x] ctx := Inv.refl (by simpa using hfresh)
  have e2 : ∀ a, (ctx.addVar ⟨x, [.scalar a]⟩).removeVar x = ctx := by
    intro a
    have i1 : Inv ctx [x] (addVars ctx [⟨x, [.scalar a]⟩]) := hinv.addVars_inv rfl
    exact i1.remove_eq (x := [⟨x, [.scalar a]⟩]) rfl
  obtain ⟨N, hN⟩ := Eventually.and hr2 (finishes_from hy)
  refine ⟨by simp, N + 1, ?_⟩
  obtain ⟨h1, h2⟩ := hN N le_rfl
  show evalRec cfg (N + 1) (.equation [(l, r)] [x]) ctx [] = _
  rw [evalRec.eq_def]
  simp only [solveEquations]
  have hev : (fun a c => evalRec cfg N a c []) = (eval cfg N : Evaluator F) := rfl
  rw [hev]
  have hnew : RootFinder.new (eval cfg N) [residualExpr (l, r)] ctx [x] = .ok ⟨[residualExpr (l, r)], [[0]], ctx, [x]⟩ := by
    unfold RootFinder.new
    rw [if_neg (by simp), if_neg (by simp [AST.isOperation, residualExpr]), if_neg, if_neg (by simp)]
    · simp only [idx, List.getElem?_cons_zero, Out.unwrap, ok_bind, List.foldl_cons, List.foldl_nil, e2]
      have h2 : eval cfg N (residualExpr (l, r)) (ctx.addVar ⟨x, [.scalar (FArith.ofDec 821785 (-5))]⟩) = .ok (.scalar (φ (FArith.ofDec 821785 (-5))) :: rest) := h2
      rw [h2, ok_bind]
      rfl
    · simpa using hfresh
  show (RootFinder.new (eval cfg N) [residualExpr (l, r)] ctx [x] >>= _) = _
  rw [hnew, ok_bind]
  have hsplit : (splitExprs [0] 0 [] [residualExpr (l, r)] : Out EvalError _) = .ok ([residualExpr (l, r)], []) := rfl
  have h1 : solveLoop0 cfg (eval cfg N) [residualExpr (l, r)] [] [x] startValues ctx [] = .ok ((searchAll cfg φ).map .scalar) := h1
  simp only [RootFinder.findRoots, findRootsLoop, hsplit, ok_bind, h1, hc]
  cases vs <;> rfl

/-! ## Cleaning up -/

/-- Each number is kept or dropped because of one that was kept. -/
theorem dedup_numbers (l acc : List F) : ∃ d : List F, dedupResults cfg (l.map .scalar) (acc.map .scalar) = d.map .scalar ∧
    (∀ w ∈ d, w ∈ l ∨ w ∈ acc) ∧ (∀ w ∈ acc, w ∈ d) ∧
    ∀ a ∈ l, ∃ w ∈ d, w = a ∨ Value.beq ((Value.scalar a).round (cfg.prec - 2)) ((Value.scalar w).round (cfg.prec - 2)) = true := by
  induction l generalizing acc with
  | nil => exact ⟨acc, rfl, fun w hw => Or.inr hw, fun w hw => hw, by simp⟩
  | cons a l ih =>
    rw [List.map_cons, dedupResults]
    by_cases hc : ((acc.map Value.scalar).any fun j => Value.beq ((Value.scalar a).round (cfg.prec - 2)) (j.round (cfg.prec - 2))) = true
    · rw [if_pos hc]
      obtain ⟨d, h1, h2, h3, h4⟩ := ih acc
      refine ⟨d, h1, fun w hw => (h2 w hw).imp (fun h => by simp [h]) id, h3, ?_⟩
      intro b hb
      rcases List.mem_cons.1 hb with rfl | hb
      · obtain ⟨j, hj, hj'⟩ := List.any_eq_true.1 hc
        obtain ⟨w, hw, rfl⟩ := List.mem_map.1 hj
        exact ⟨w, h3 w hw, Or.inr hj'⟩
      · exact h4 b hb
    · rw [if_neg hc]
      obtain ⟨d, h1, h2, h3, h4⟩ := ih (acc ++ [a])
      rw [List.map_append] at h1
      refine ⟨d, h1, ?_, fun w hw => h3 w (by simp [hw]), ?_⟩
      · intro w hw
        rcases h2 w hw with h | h
        · exact Or.inl (by simp [h])
        · rcases List.mem_append.1 h with h | h
          · exact Or.inr h
          · exact Or.inl (by simp at h; simp [h])
      · intro b hb
        rcases List.mem_cons.1 hb with rfl | hb
        · exact ⟨b, h3 b (by simp), Or.inl rfl⟩
        · exact h4 b hb

end

section
variable {F : Type} [FNum F] [Binary64 F] {cfg : Cfg}

/-- Sorting finite numbers. -/
theorem sort_numbers {ε : Type} {key : F → F} {k : ℚ → ℚ} (hk : ∀ a q, Binary64.val a = some q → Binary64.val (key a) = some (k q)) {l : List F}
    (h : ∀ a ∈ l, ∃ q, Binary64.val a = some q) :
    ∃ l' : List F, (sortByKey key (l.map .scalar) : Out ε _) = .ok (l'.map .scalar) ∧ l'.Perm l ∧
      l'.Pairwise fun a b => ∀ p q, Binary64.val a = some p → Binary64.val b = some q → k p ≤ k q := by
  refine ⟨l.mergeSort fun a b => !FArith.lt (key b) (key a), ?_, List.mergeSort_perm _ _, ?_⟩
  · unfold sortByKey
    have hkeyed : ((l.map Value.scalar).mapM fun v => do
        let k ← (sortKey v : Out ε F)
        (.ok (key k, v) : Out ε (F × Value F))) = .ok (l.map fun a => (key a, .scalar a)) := by
      clear h
      induction l with
      | nil => rfl
      | cons a l ih =>
        rw [List.map_cons, List.mapM_cons, ih]
        rfl
    rw [hkeyed, ok_bind, if_neg]
    · have := List.map_mergeSort (f := fun a : F => (key a, (Value.scalar a))) (r := fun a b => !FArith.lt (key b) (key a))
        (s := fun a b => !FArith.lt b.1 a.1) (l := l) (fun a _ b _ => rfl)
      rw [← this, List.map_map]
      rfl
    · rw [Bool.not_eq_true, List.any_eq_false]
      intro kv hkv
      obtain ⟨a, ha, rfl⟩ := List.mem_map.1 hkv
      obtain ⟨q, hq⟩ := h a ha
      have := hk a q hq
      have hn : FArith.isNaN (key a) = false := by
        have hf := Exact.finite_iff (F := Ext ℚ) (K := ℚ) (Binary64.bits (key a)).ext
        have hv : (Exact.val (Binary64.bits (key a)).ext : Option ℚ) = some (k q) := this
        rw [hv, Option.isNone_some, Bool.or_eq_false_iff] at hf
        rw [Binary64.bits_isNaN]
        exact hf.2
      simp [hn]
  · have hm := List.map_mergeSort (f := fun a : F => ((Binary64.val a).getD 0 : ℚ)) (r := fun a b => !FArith.lt (key b) (key a))
      (s := fun p q => decide (k p ≤ k q)) (l := l) (by
        intro a ha b hb
        obtain ⟨p, hp⟩ := h a ha
        obtain ⟨q, hq⟩ := h b hb
        rw [Binary64.lt_val (hk b q hq) (hk a p hp), hp, hq, ← decide_not]
        simp)
    have hs := List.pairwise_mergeSort (le := fun p q : ℚ => decide (k p ≤ k q)) (by
      intro a b c h1 h2
      simp only [decide_eq_true_eq] at *
      exact h1.trans h2) (by
      intro a b
      simp only [Bool.or_eq_true, decide_eq_true_eq]
      exact le_total _ _) (l.map fun a : F => ((Binary64.val a).getD 0 : ℚ))
    rw [← hm, List.pairwise_map] at hs
    refine hs.imp ?_
    intro a b hab p q hp hq
    rw [hp, hq] at hab
    simpa using hab

/-- What is reported of finite numbers. -/
theorem clean_numbers {ε : Type} {l : List F} (h : ∀ a ∈ l, ∃ q, Binary64.val a = some q) :
    ∃ vs : List F, (cleanResults cfg (l.map .scalar) : Out ε _) = .ok (vs.map .scalar) ∧ (∀ v ∈ vs, v ∈ l) ∧
      ∀ a ∈ l, ∃ w ∈ l, (w = a ∨ Value.beq ((Value.scalar a).round (cfg.prec - 2)) ((Value.scalar w).round (cfg.prec - 2)) = true) ∧
        (w ∈ vs ∨ (vs.length = 10 ∧ ∀ v ∈ vs, ∀ p q, Binary64.val v = some p → Binary64.val w = some q → |p| ≤ |q|)) := by
  cases l with
  | nil => exact ⟨[], rfl, by simp, by simp⟩
  | cons a0 l =>
    obtain ⟨d, h1, h2, -, h4⟩ := dedup_numbers (cfg := cfg) (a0 :: l) []
    have h2 : ∀ w ∈ d, w ∈ a0 :: l := fun w hw => (h2 w hw).resolve_right (by simp)
    rw [List.map_nil] at h1
    unfold cleanResults
    rw [List.map_cons] at h1 ⊢
    simp only [h1, List.length_map]
    by_cases hlen : d.length > 10
    · rw [if_pos hlen]
      have hd : ∀ a ∈ d, ∃ q, Binary64.val a = some q := fun a ha => h a (h2 a ha)
      obtain ⟨s1, e1, p1, w1⟩ := sort_numbers (ε := ε) (key := FArith.abs) (k := fun x => |x|) (fun a q h => by rw [Binary64.val_abs, h]; rfl) hd
      obtain ⟨s2, e2, p2, -⟩ := sort_numbers (ε := ε) (key := id) (k := id) (fun a q h => h) (l := s1.take 10)
        (fun a ha => hd a (p1.mem_iff.1 (List.mem_of_mem_take ha)))
      refine ⟨s2, ?_, ?_, ?_⟩
      · rw [e1, ok_bind, ← List.map_take]
        exact e2
      · intro v hv
        exact h2 v (p1.mem_iff.1 (List.mem_of_mem_take (p2.mem_iff.1 hv)))
      · intro a ha
        obtain ⟨w, hw, hw'⟩ := h4 a ha
        refine ⟨w, h2 w hw, hw', ?_⟩
        have hw1 := p1.mem_iff.2 hw
        rw [← List.take_append_drop 10 s1] at hw1
        rcases List.mem_append.1 hw1 with hw1 | hw1
        · exact Or.inl (p2.mem_iff.2 hw1)
        · right
          constructor
          · rw [p2.length_eq, List.length_take, p1.length_eq]
            omega
          · intro v hv p q hp hq
            rw [← List.take_append_drop 10 s1, List.pairwise_append] at w1
            exact w1.2.2 v (p2.mem_iff.1 hv) w hw1 p q hp hq
    · rw [if_neg hlen]
      refine ⟨d, rfl, h2, fun a ha => ?_⟩
      obtain ⟨w, hw, hw'⟩ := h4 a ha
      exact ⟨w, h2 w hw, hw', Or.inl hw⟩

end

end MUL
