import Verif.Proofs.FloatFound
/-!
# C89: solving one equation in binary64 arithmetic
-/

set_option linter.unusedSectionVars false

namespace MUL
open Out Spec

section
variable {F : Type} [FNum F] [Binary64 F] {u : ℝ} [Libm F u] [Tens F] {cfg : Cfg} {ctx : Context F} {x : Str}

omit [Libm F u] [Tens F] in
/-- Formulas of numbers have one value, whatever the values of the variables are (also infinity and NaN). -/
theorem formula_value {V : Str → Prop} {e : Ex} (he : NumFormula V e) {c : Context F} (hc : ∀ n, V n → ∃ b : F, c.findVar n = some [.scalar b])
    (w : Str) : ∃ b : F, Finishes (fun n => evalRec cfg n (e.tree cfg) c w) (.ok [.scalar b]) := by
  induction he with
  | num ip fp => exact ⟨_, scalar_rec cfg c w _⟩
  | var n hn =>
    obtain ⟨b, hb⟩ := hc n hn
    refine ⟨b, by simp, 1, ?_⟩
    simp only [Ex.tree, evalRec, hb]
  | paren e _ ih =>
    obtain ⟨b, hb⟩ := ih
    exact ⟨b, simple_one hb (scalar_rec cfg c w _) rfl⟩
  | neg e _ ih =>
    obtain ⟨b, hb⟩ := ih
    exact ⟨_, simple_one (scalar_rec cfg c w _) hb rfl⟩
  | bin op l r hop _ _ ihl ihr =>
    obtain ⟨a, ha⟩ := ihl
    obtain ⟨b, hb⟩ := ihr
    simp only [List.mem_cons, List.not_mem_nil, or_false] at hop
    rcases hop with rfl | rfl | rfl | rfl | rfl | rfl
    all_goals exact ⟨_, simple_one ha hb rfl⟩
  | fn name op e hop _ ih =>
    obtain ⟨a, ha⟩ := ih
    simp only [List.mem_cons, List.not_mem_nil, or_false] at hop
    rcases hop with rfl | rfl | rfl | rfl | rfl | rfl | rfl | rfl | rfl
    case inr.inr.inr.inl =>
      by_cases hlt : FArith.lt a (FArith.ofInt 0) = true
      · exact ⟨FArith.mul a (FArith.ofInt (-1)), simple_one ha (scalar_rec cfg c w _) (by simp only [opTable, vAbs, if_pos hlt, ok_bind])⟩
      · exact ⟨a, simple_one ha (scalar_rec cfg c w _) (by simp only [opTable, vAbs, if_neg hlt, ok_bind])⟩
    all_goals exact ⟨_, simple_one ha (scalar_rec cfg c w _) rfl⟩
  | root a b _ _ iha ihb =>
    obtain ⟨a', ha⟩ := iha
    obtain ⟨b', hb⟩ := ihb
    exact ⟨_, simple_one ha hb rfl⟩

omit [Libm F u] [Tens F] in
/-- A finite sum of finite numbers. -/
theorem sum_inv {a b : F} {p q z : ℚ} (ha : Binary64.val a = some p) (hb : Binary64.val b = some q)
    (h : Binary64.val (FArith.add a b) = some z) : |(z : ℝ) - (p + q)| ≤ |(p : ℝ) + q| / 2 ^ 53 := by
  have hlim : |p + q| < Binary64.limit := by
    by_contra hc
    rw [not_lt] at hc
    unfold Binary64.val at ha hb h
    rw [Binary64.bits_add] at h
    have h : (F64.rnd (Ext.add (Binary64.bits a).ext (Binary64.bits b).ext)).ext.value = some z := h
    have hv : (Ext.add (Binary64.bits a).ext (Binary64.bits b).ext).value = some (p + q) := Exact.val_add (F := Ext ℚ) ha hb
    have hne : p + q ≠ 0 := by
      rintro h0
      rw [h0, abs_zero] at hc
      have := (abs_nonneg (0 : ℚ)).trans_lt (rep_lt_limit representable_zero)
      linarith
    generalize Ext.add (Binary64.bits a).ext (Binary64.bits b).ext = y at *
    cases y with
    | fin y =>
      cases hv
      have h : (F64.roundQ (p + q)).value = some z := h
      rw [F64.roundQ_over hc] at h
      cases h
    | negZero => exact hne (by simpa [Ext.value] using hv.symm)
    | nan => cases hv
    | inf s => cases hv
  obtain ⟨i, hi⟩ := F64.representable_multiple (Binary64.rep ha)
  obtain ⟨j, hj⟩ := F64.representable_multiple (Binary64.rep hb)
  have hk := fl_error_real_multiple (x := p + q) (i + j) (by rw [hi, hj]; push_cast; ring)
  rw [Binary64.val_add ha hb hlim] at h
  cases h
  push_cast at hk
  exact hk

include u in
/-- **C89.** Let the difference of the sides of the equation, as a function of the variable `x`, be computed as `φ`. At most ten numbers are
returned, all of them finite. The difference computed at each of them is smaller than `1.01·10^-PREC`. Each zero `s` of a function `g` in
the range of the start values that is findable (`Findable`) if `φ` computes `g` with errors up to `ε` is returned up to
`1.03·10^-PREC / m + 1.2·10^-(PREC-2)` — or there are ten other results that are not larger. -/
theorem C89_equation (hu : u ≤ 1 / 2 ^ 20) (hprec : cfg.prec ≤ 22) (hfresh : ∀ v ∈ ctx.vars, v.name ≠ x) (l r : AST F) (φ : F → F)
    (hf : ∀ a : F, Finishes (fun n => eval cfg n (.simple .sub l r) (ctx.addVar ⟨x, [.scalar a]⟩)) (.ok [.scalar (φ a)])) :
    ∃ vs : List F, Finishes (fun n => eval cfg n (.equation [(l, r)] [x]) ctx) (.ok (vs.map .scalar)) ∧ vs.length ≤ 10 ∧
      (∀ v ∈ vs, ∃ p q : ℚ, Binary64.val v = some p ∧ Binary64.val (φ v) = some q ∧ |(q : ℝ)| ≤ 101 / 100 * 10 ^ (-(cfg.prec : Int))) ∧
      ∀ (g : ℝ → ℝ) (s m ε : ℝ), Findable g s m ε (10 ^ (-(cfg.prec : Int))) →
        ComputesWithin φ g (s - 1 / 2) (s + 1 / 2 + 2 * 10 ^ (-(cfg.prec : Int))) ε → -1000 ≤ s → s ≤ 999 →
        (∃ v ∈ vs, ∃ p : ℚ, Binary64.val v = some p ∧
          |(p : ℝ) - s| ≤ 103 / 100 * 10 ^ (-(cfg.prec : Int)) / m + 6 / 5 * 10 ^ (-((cfg.prec - 2 : Nat) : Int))) ∨
        (vs.length = 10 ∧ ∀ v ∈ vs, ∃ p : ℚ, Binary64.val v = some p ∧
          |(p : ℝ)| ≤ |s| + 103 / 100 * 10 ^ (-(cfg.prec : Int)) / m + 6 / 5 * 10 ^ (-((cfg.prec - 2 : Nat) : Int))) := by
  have hall : ∀ a ∈ searchAll cfg φ, ∃ q, Binary64.val a = some q := fun a ha => (searchAll_spec ha).1
  obtain ⟨vs, c1, c2, c3⟩ := clean_numbers (ε := EvalError) (cfg := cfg) hall
  have hfin := search_equation (φ := φ) hfresh l r (fun a => ⟨[], hf a⟩) c1
  refine ⟨vs, hfin, ?_, ?_, ?_⟩
  · have := cleanResults_length c1
    rw [List.length_map] at this
    exact this fun v hv m hm => by
      obtain ⟨a, -, rfl⟩ := List.mem_map.1 hv
      cases hm
  · intro v hv
    obtain ⟨⟨p, hp⟩, hs⟩ := searchAll_spec (c2 v hv)
    obtain ⟨q, q1, q2⟩ := le_of_small (u := u) hu hprec hs
    exact ⟨p, q, hp, q1, q2⟩
  · intro g s m ε hg hφ h1 h2
    obtain ⟨b, hb, q, q1, q3, q2⟩ := zero_found (u := u) hu hprec hg hφ h1 h2
    obtain ⟨w, hw, hw', hcase⟩ := c3 b hb
    obtain ⟨y, hy⟩ := hall w hw
    have hm := hg.pos
    have hH := zpow_pos (show (0 : ℝ) < 10 by norm_num) (-(cfg.prec : Int))
    have hT := zpow_pos (show (0 : ℝ) < 10 by norm_num) (-((cfg.prec - 2 : Nat) : Int))
    have hHT : (10 : ℝ) ^ (-(cfg.prec : Int)) ≤ 10 ^ (-((cfg.prec - 2 : Nat) : Int)) := zpow_le_zpow_right₀ (by norm_num) (by omega)
    -- the kept number is close to the one found
    have hclose : |(y : ℝ) - s| ≤ 103 / 100 * 10 ^ (-(cfg.prec : Int)) / m + 6 / 5 * 10 ^ (-((cfg.prec - 2 : Nat) : Int)) := by
      rcases hw' with rfl | hbeq
      · rw [q1] at hy
        cases hy
        linarith
      · have hqb : |(q : ℝ)| ≤ |s| + 1 / 2 := by
          calc |(q : ℝ)| = |((q : ℝ) - s) + s| := by ring_nf
            _ ≤ |(q : ℝ) - s| + |s| := abs_add_le _ _
            _ ≤ _ := by linarith
        have hqb1 : |(q : ℝ)| ≤ 1001 := by
          have : |s| ≤ 1000 := abs_le.2 ⟨h1, by linarith⟩
          linarith
        have hqb2 : |q| ≤ 1001 := by exact_mod_cast hqb1
        have hp : cfg.prec - 2 ≤ 22 := by omega
        have := rounded_close q1 hy hp (by
          have h3 := ten_bound hp
          have h4 := lt_limit_of_small (x := 1001 * 10 ^ 22) (by norm_num)
          rw [abs_of_pos (by norm_num)] at h4
          unfold Binary64.limit at h4
          refine lt_of_le_of_lt ?_ h4
          exact mul_le_mul hqb2 h3 (by positivity) (by norm_num)) hbeq
        have h3 : |(q : ℝ) - y| ≤ 101 / 100 * 10 ^ (-((cfg.prec - 2 : Nat) : Int)) + |(q : ℝ)| / 2 ^ 49 := by
          have h4 := (Rat.cast_le (K := ℝ)).2 this
          push_cast at h4
          rw [zpow_neg, zpow_natCast, ← div_eq_mul_inv]
          exact h4
        have h5 : |(y : ℝ) - s| ≤ |(q : ℝ) - y| + |(q : ℝ) - s| := by
          calc |(y : ℝ) - s| = |-((q : ℝ) - y) + (q - s)| := by ring_nf
            _ ≤ _ := (abs_add_le _ _).trans (by rw [abs_neg])
        have h6 := hg.near
        generalize (10 : ℝ) ^ (-(cfg.prec : Int)) = H at *
        generalize (10 : ℝ) ^ (-((cfg.prec - 2 : Nat) : Int)) = T at *
        clear this
        linarith
    rcases hcase with hmem | ⟨hlen, hle⟩
    · exact Or.inl ⟨w, hmem, y, hy, hclose⟩
    · refine Or.inr ⟨hlen, fun v hv => ?_⟩
      obtain ⟨p, hp⟩ := hall v (c2 v hv)
      refine ⟨p, hp, ?_⟩
      have h3 : |(p : ℝ)| ≤ |(y : ℝ)| := by
        have := hle v hv p y hp hy
        exact_mod_cast this
      have h4 : |(y : ℝ)| ≤ |s| + |(y : ℝ) - s| := by
        calc |(y : ℝ)| = |s + ((y : ℝ) - s)| := by ring_nf
          _ ≤ _ := abs_add_le _ _
      linarith

omit [Binary64 F] [Libm F u] [Tens F] in
theorem eval_unique {e : AST F} {c : Context F} {a b : Out EvalError (List (Value F))} (ha : Finishes (fun n => eval cfg n e c) a)
    (hb : Finishes (fun n => eval cfg n e c) b) : a = b := by
  obtain ⟨n, hn⟩ := eval_mono ha
  obtain ⟨m, hm⟩ := eval_mono hb
  rw [← hn (max n m) (le_max_left _ _), ← hm (max n m) (le_max_right _ _)]

theorem Spec.Findable.neg {g : ℝ → ℝ} {s m ε h : ℝ} (H : Findable g s m ε h) : Findable (fun z => -g z) s m ε h where
  zero := by simp [H.zero]
  pos := H.pos
  slopes := by
    rcases H.slopes with hs | hs
    · right; simpa using hs
    · left; exact hs
  accurate := H.accurate
  precise := H.precise
  near := H.near
  flat := H.flat

omit [Libm F u] [Tens F] in
theorem Spec.SolvesWithin.symm {φ : Defs} {ρ : EnvR} {le re : Ex} {vs : List F} (h : SolvesWithin cfg u φ ρ x le re vs) :
    SolvesWithin cfg u φ ρ x re le vs := by
  obtain ⟨h1, h2, h3⟩ := h
  refine ⟨h1, fun v hv => ?_, fun g k el er s m ε hr hg => ?_⟩
  · obtain ⟨p, hp, hp'⟩ := h2 v hv
    refine ⟨p, hp, fun a b ha hb => ?_⟩
    have := hp' b a hb ha
    rw [abs_sub_comm]
    linarith
  · refine h3 k g er el s m ε (fun z h1 h2 h3 => ?_) (by simpa using hg.neg)
    obtain ⟨k1, k2, k3⟩ := hr z h1 h2 h3
    refine ⟨k2, k1, ?_⟩
    rw [abs_sub_comm, add_comm (er z)]
    exact k3

theorem tree_equation (hu : u ≤ 1 / 2 ^ 20) (hprec : cfg.prec ≤ 22) {le re : Ex} {φ : Defs} {ρ : EnvR}
    (hfresh : ctx.findVar x = none) (hm : ModelsR cfg ctx ρ φ)
    (hl : NumFormula (fun n => n = x ∨ ∃ b : F, ctx.findVar n = some [.scalar b]) le)
    (hr : NumFormula (fun n => n = x ∨ ∃ b : F, ctx.findVar n = some [.scalar b]) re) :
    ∃ vs : List F, Finishes (fun n => eval cfg n (.equation [(le.tree cfg, re.tree cfg)] [x]) ctx) (.ok (vs.map .scalar)) ∧
      SolvesWithin cfg u φ ρ x le re vs := by
  have hfresh' : ∀ v ∈ ctx.vars, v.name ≠ x := by
    intro v hv hx
    unfold Context.findVar at hfresh
    rw [Option.map_eq_none_iff, List.find?_eq_none] at hfresh
    exact hfresh v hv (by simpa using hx)
  have hctx : ∀ a : F, ∀ n, (n = x ∨ ∃ b : F, ctx.findVar n = some [.scalar b]) → ∃ b : F, (ctx.addVar ⟨x, [.scalar a]⟩).findVar n = some [.scalar b] := by
    intro a n hn
    by_cases hnx : n = x
    · subst hnx
      exact ⟨a, by rw [findVar_addVar, if_pos rfl]⟩
    · obtain ⟨b, hb⟩ := hn.resolve_left hnx
      exact ⟨b, by rw [findVar_addVar, if_neg hnx]; exact hb⟩
  have hval : ∀ a : F, ∃ p : F × F, Finishes (fun n => eval cfg n (le.tree cfg) (ctx.addVar ⟨x, [.scalar a]⟩)) (.ok [.scalar p.1]) ∧
      Finishes (fun n => eval cfg n (re.tree cfg) (ctx.addVar ⟨x, [.scalar a]⟩)) (.ok [.scalar p.2]) := by
    intro a
    obtain ⟨b, hb⟩ := formula_value (cfg := cfg) hl (hctx a) []
    obtain ⟨c, hc⟩ := formula_value (cfg := cfg) hr (hctx a) []
    exact ⟨(b, c), hb, hc⟩
  choose ψ hψ1 hψ2 using hval
  -- the sides at finite numbers
  have hside : ∀ (a : F) (p : ℚ), Binary64.val a = some p → ∀ (A B : Approx), Rounds cfg u φ [] (ρ.set x (.scalar ⟨p, 0⟩)) le (.scalar A) →
      Rounds cfg u φ [] (ρ.set x (.scalar ⟨p, 0⟩)) re (.scalar B) → Near (ψ a).1 A ∧ Near (ψ a).2 B := by
    intro a p ha A B hA hB
    have hma : ModelsR cfg (setVar ctx x a) (ρ.set x (.scalar ⟨p, 0⟩)) φ := hm.set x ⟨p, ha, by simp⟩
    obtain ⟨v, v1, v2⟩ := rounds_eval hA hma
    obtain ⟨w, w1, w2⟩ := rounds_eval hB hma
    have e1 := eval_unique v1 (hψ1 a)
    have e2 := eval_unique w1 (hψ2 a)
    cases e1
    cases e2
    exact ⟨v2, w2⟩
  obtain ⟨vs, r1, r2, r3, r4⟩ := C89_equation (u := u) hu hprec hfresh' (le.tree cfg) (re.tree cfg)
    (fun a => FArith.add (ψ a).1 (FArith.mul (ψ a).2 (FArith.ofInt (-1)))) (fun a => simple_one (hψ1 a) (hψ2 a) rfl)
  refine ⟨vs, r1, r2, fun v hv => ?_, fun g k el er s m ε hrs hg h1 h2 => ?_⟩
  · obtain ⟨p, q, p1, q1, q2⟩ := r3 v hv
    refine ⟨p, p1, fun A B hA hB => ?_⟩
    obtain ⟨⟨l, l1, l2⟩, ⟨r, k1, k2⟩⟩ := hside v p p1 A B hA hB
    have hs := sum_inv l1 (neg_one_val k1) q1
    push_cast at hs
    rw [← sub_eq_add_neg] at hs
    have t1 : |(l : ℝ) - r| ≤ 51 / 50 * 10 ^ (-(cfg.prec : Int)) := by
      have : |(l : ℝ) - r| ≤ |(q : ℝ) - (l - r)| + |(q : ℝ)| := by
        calc |(l : ℝ) - r| = |-((q : ℝ) - (l - r)) + q| := by ring_nf
          _ ≤ _ := (abs_add_le _ _).trans (by rw [abs_neg])
      have h0 := abs_nonneg ((l : ℝ) - r)
      linarith
    calc |A.val - B.val| = |((l : ℝ) - r) + (-((l : ℝ) - A.val) + (r - B.val))| := by ring_nf
      _ ≤ |(l : ℝ) - r| + (|(l : ℝ) - A.val| + |(r : ℝ) - B.val|) := by
          refine (abs_add_le _ _).trans (add_le_add_right ((abs_add_le _ _).trans (by rw [abs_neg])) _)
      _ ≤ _ := add_le_add t1 (add_le_add l2 k2)
  · refine r4 (fun z => g z - k z) s m ε hg (fun c q hc hq1 hq2 => ?_) h1 h2
    obtain ⟨k1, k2, k3⟩ := hrs q ⟨q, Binary64.rep hc, rfl⟩ hq1 hq2
    obtain ⟨⟨l, l1, l2⟩, ⟨r, n1, n2⟩⟩ := hside c q hc _ _ k1 k2
    simp only at l2 n2
    have hd : |((l : ℝ) + ((-r : ℚ) : ℝ)) - (g q - k q)| ≤ el q + er q := by
      push_cast
      calc |(l : ℝ) + -r - (g q - k q)| = |((l : ℝ) - g q) + -((r : ℝ) - k q)| := by ring_nf
        _ ≤ _ := (abs_add_le _ _).trans (by rw [abs_neg]; exact add_le_add l2 n2)
    have hd2 : |(l : ℝ) + ((-r : ℚ) : ℝ)| ≤ |g q - k q| + (el q + er q) := by
      calc |(l : ℝ) + ((-r : ℚ) : ℝ)| = |(g q - k q) + ((l : ℝ) + ((-r : ℚ) : ℝ) - (g q - k q))| := by ring_nf
        _ ≤ _ := (abs_add_le _ _).trans (by linarith)
    have hε : ε ≤ 1 := by
      have := hg.precise
      have hH1 : (10 : ℝ) ^ (-(cfg.prec : Int)) ≤ 1 := by
        have : (10 : ℝ) ^ (-(cfg.prec : Int)) ≤ 10 ^ (0 : Int) := zpow_le_zpow_right₀ (by norm_num) (by omega)
        rwa [zpow_zero] at this
      linarith
    have he0 : 0 ≤ el q + er q := (abs_nonneg _).trans hd
    have hbig : |g q - k q| + (el q + er q) ≤ 2 ^ 53 := by
      have : (|g q - k q| + (el q + er q)) / 2 ^ 53 ≤ 1 := by linarith
      rwa [div_le_one (by norm_num)] at this
    obtain ⟨z, z1, z2⟩ := sum_val l1 (neg_one_val n1) (hd2.trans (hbig.trans (by norm_num)))
    refine ⟨z, z1, ?_⟩
    calc |(z : ℝ) - (g q - k q)| = |((z : ℝ) - (l + ((-r : ℚ) : ℝ))) + (l + ((-r : ℚ) : ℝ) - (g q - k q))| := by ring_nf
      _ ≤ |(z : ℝ) - (l + ((-r : ℚ) : ℝ))| + |(l : ℝ) + ((-r : ℚ) : ℝ) - (g q - k q)| := abs_add_le _ _
      _ ≤ (|g q - k q| + (el q + er q)) / 2 ^ 53 + (el q + er q) :=
          add_le_add (z2.trans (div_le_div_of_nonneg_right hd2 (by norm_num))) hd
      _ ≤ ε := by linarith

/-- **C89**, from the text of the equation and error bounds for its sides. -/
theorem C89_text [UTable] (hu : u ≤ 1 / 2 ^ 20) (hprec : cfg.prec ≤ 22) {le re : Ex} {φ : Defs} {ρ : EnvR}
    (hwf : (Ex.eqs [le] [re] [x]).WF) (hfresh : ctx.findVar x = none) (hm : ModelsR cfg ctx ρ φ)
    (hl : NumFormula (fun n => n = x ∨ ∃ b : F, ctx.findVar n = some [.scalar b]) le)
    (hr : NumFormula (fun n => n = x ∨ ∃ b : F, ctx.findVar n = some [.scalar b]) re) :
    ∃ vs : List F, Finishes (fun n => quickEval cfg n (Ex.eqs [le] [re] [x]).text ctx) (.ok (vs.map .scalar)) ∧
      SolvesWithin cfg u φ ρ x le re vs := by
  have hparse := C29_eval cfg _ ctx (C09_parse_text (F := F) cfg _ hwf)
  simp only [Ex.tree, treeAll, textAll, List.zip_cons_cons, List.zip_nil_left, List.zipWith_cons_cons, List.zipWith_nil_left] at hparse
  split at hparse
  · obtain ⟨vs, h3, h4⟩ := tree_equation (u := u) hu hprec hfresh hm hl hr
    exact ⟨vs, (hparse.1 _).1 h3, h4⟩
  · obtain ⟨vs, h3, h4⟩ := tree_equation (u := u) hu hprec hfresh hm hr hl
    exact ⟨vs, (hparse.1 _).1 h3, h4.symm⟩

/-- `eq(3*x=7,x)` has a result within `2·10^-6` of `7/3` (default precision). -/
example [UTable] (cfg : Cfg) (hcfg : cfg.prec = 8) (hu : u ≤ 1 / 2 ^ 20) : ∃ vs : List F,
    Finishes (fun n => quickEval cfg n "eq(3*x=7,x)".toList (⟨[], []⟩ : Context F)) (.ok (vs.map .scalar)) ∧
      ∃ v ∈ vs, ∃ p : ℚ, Binary64.val v = some p ∧ |(p : ℝ) - 7 / 3| ≤ 2 / 10 ^ 6 := by
  have h8 : (10 : ℝ) ^ (-(cfg.prec : Int)) = 1 / 10 ^ 8 := by rw [hcfg]; norm_num
  have h6 : (10 : ℝ) ^ (-((cfg.prec - 2 : Nat) : Int)) = 1 / 10 ^ 6 := by rw [hcfg]; norm_num
  have num : ∀ (s : Str) (n : ℝ) (ρ : EnvR), Fits (digitsNumber s) → ((digitsNumber s : ℤ) : ℝ) = n →
      Rounds cfg u (fun _ => none) [] ρ (.num s none) (.scalar ⟨n, 0⟩) := by
    intro s n ρ hf hn
    have e : Spec.numeral s none = n := by rw [← hn]; simp [Spec.numeral]
    have := Rounds.numExact (cfg := cfg) (u := u) (φ := fun _ => none) (cur := []) (ρ := ρ) s none (by rw [e, ← hn]; exact representableR_int hf)
    rwa [e] at this
  have h3 : ∀ ρ, Rounds cfg u (fun _ => none) [] ρ (.num "3".toList none) (.scalar ⟨3, 0⟩) := fun ρ =>
    num _ 3 ρ (by unfold Fits; decide) (by have : digitsNumber "3".toList = 3 := by decide
                                           rw [this]; norm_num)
  have h7 : ∀ ρ, Rounds cfg u (fun _ => none) [] ρ (.num "7".toList none) (.scalar ⟨7, 0⟩) := fun ρ =>
    num _ 7 ρ (by unfold Fits; decide) (by have : digitsNumber "7".toList = 7 := by decide
                                           rw [this]; norm_num)
  have side : ∀ z : ℝ, |z| ≤ 3 → Rounds cfg u (fun _ => none) [] (EnvR.set (fun _ => none) "x".toList (.scalar ⟨z, 0⟩))
      (.bin .mult (.num "3".toList none) (.var "x".toList)) (.scalar ⟨3 * z, 9 / 2 ^ 53⟩) := by
    intro z hz
    have h9 : |3 * z| ≤ 9 := by rw [abs_mul, abs_of_pos (by norm_num : (0 : ℝ) < 3)]; linarith
    have hv : Rounds cfg u (fun _ => none) [] (EnvR.set (fun _ => none) "x".toList (.scalar ⟨z, 0⟩)) (.var "x".toList) (.scalar ⟨z, 0⟩) :=
      .var _ _ (by simp [EnvR.set])
    refine .weaken _ _ _ (.bin .mult _ _ _ _ _ (h3 _) hv (.mult (.scalar (.rounded 3 0 z 0 ?_)))) (.scalar ?_)
    · simp only [prodErr, mul_zero, zero_mul, add_zero]
      refine lt_overflow (h9.trans ?_)
      calc (9 : ℝ) ≤ 2 ^ 4 := by norm_num
        _ ≤ 2 ^ 1000 := pow_le_pow_right₀ (by norm_num) (by norm_num)
    · simp only [prodErr, mul_zero, zero_mul, add_zero, zero_add]
      unfold roundErr
      refine max_le (by linarith) ?_
      calc (1 : ℝ) / 2 ^ 1075 ≤ 1 / 2 ^ 53 := one_div_le_one_div_of_le (by positivity) (pow_le_pow_right₀ (by norm_num) (by norm_num))
        _ ≤ 9 / 2 ^ 53 := by norm_num
  obtain ⟨vs, v1, -, v3, v4⟩ := C89_text (F := F) (u := u) (cfg := cfg) (ctx := ⟨[], []⟩) (x := "x".toList) (φ := fun _ => none) (ρ := fun _ => none)
    (le := .bin .mult (.num "3".toList none) (.var "x".toList)) (re := .num "7".toList none) hu (by omega)
    ⟨rfl, ⟨⟨wf_num (s := "3") (by decide), wf_name (n := "x") (by decide), by decide, by decide, nofun⟩, trivial⟩,
      ⟨wf_num (s := "7") (by decide), trivial⟩, Or.inl (by simp), by decide, by
        intro v hv; simp only [List.mem_singleton] at hv; subst hv; exact nameShape_letters (by decide) (by decide)⟩
    rfl ⟨by simp [NoDupVars], nofun, nofun⟩ (.bin _ _ _ (by simp) (.num _ _) (.var _ (Or.inl rfl))) (.num _ _)
  refine ⟨vs, v1, ?_⟩
  have near : ∀ v ∈ vs, ∀ p : ℚ, Binary64.val v = some p → |(p : ℝ)| ≤ 3 → |(p : ℝ) - 7 / 3| ≤ 2 / 10 ^ 6 := by
    intro v hv p hp h
    obtain ⟨p', hp', h'⟩ := v3 v hv
    obtain rfl : p = p' := by rw [hp] at hp'; exact Option.some.inj hp'
    have := h' _ _ (side p h) (h7 _)
    simp only [h8] at this
    rw [abs_le] at this ⊢
    constructor <;> linarith
  rcases v4 (fun z => 3 * z) (fun _ => 7) (fun _ => 9 / 2 ^ 53) (fun _ => 0) (7 / 3) 3 (12 / 2 ^ 53) (by
      intro z _ z1 z2
      rw [h8] at z2
      have hz : |z| ≤ 3 := by rw [abs_le]; constructor <;> linarith
      refine ⟨side z hz, h7 _, ?_⟩
      have : |3 * z - 7| ≤ 2 := by rw [abs_le]; constructor <;> linarith
      have : (|3 * z - 7| + (9 / 2 ^ 53 + 0)) / 2 ^ 53 ≤ 3 / 2 ^ 53 := div_le_div_of_nonneg_right (by linarith) (by norm_num)
      linarith)
    { zero := by norm_num
      pos := by norm_num
      slopes := Or.inl fun a b _ hab _ => by constructor <;> linarith
      accurate := by rw [h8]; norm_num
      precise := by rw [h8]; norm_num
      near := by rw [h8, abs_of_pos (by norm_num)]; norm_num
      flat := by rw [h8, abs_of_pos (by norm_num)]; norm_num } (by norm_num) (by norm_num) with ⟨v, hv, p, hp, h⟩ | ⟨hlen, h⟩
  · refine ⟨v, hv, p, hp, ?_⟩
    rw [h8, h6] at h
    linarith
  · match vs, hlen with
    | v :: _, _ =>
      obtain ⟨p, hp, h⟩ := h v (by simp)
      rw [h8, h6, abs_of_pos (by norm_num : (0 : ℝ) < 7 / 3)] at h
      exact ⟨v, by simp, p, hp, near v (by simp) p hp (by linarith)⟩

end

end MUL
