import Verif.Proofs.Newton
import Verif.Proofs.Quadratic
import Verif.Props.Denote
/-!
# C64: solving one equation for one variable
-/

namespace MUL
open Out Spec

set_option linter.unusedSectionVars false

section
variable {F : Type} [FNum F] [ExactReal F]
variable {cfg : Cfg} {ctx : Context F} {x : Str} {l r : AST F} {f : ℝ → Option ℝ}

theorem same_map {vs : List F} {us : List ℝ} (h : List.Forall₂ Same vs us) : vs.map Exact.val = us.map some := by
  induction h with
  | nil => rfl
  | cons h _ ih => rw [List.map_cons, List.map_cons, ih, show Exact.val _ = _ from h]

/-- **C64.** What `eq(l=r, x)` returns, in terms of the difference of the two sides as a function `f` of `x` alone. -/
theorem C64_procedure (hfresh : ∀ v ∈ ctx.vars, v.name ≠ x) (hf : FunctionOf cfg ctx x (residualExpr (l, r)) f) :
    ∃ vs : List F, Finishes (fun n => eval cfg n (.equation [(l, r)] [x]) ctx) (.ok (vs.map .scalar)) ∧
      vs.map Exact.val = (reported (cfg.prec - 2) (found f (10 ^ (-(cfg.prec : Int))))).map some := by
  obtain ⟨vs, h1, n, h2⟩ := solve_one hfresh l r hf
  exact ⟨vs, ⟨by simp, n, h2 n le_rfl⟩, same_map h1⟩

/-- **C64.** If the two sides always differ by at least `10^-PREC` (or have no value), there is no solution. -/
theorem C64_no_solution (hfresh : ∀ v ∈ ctx.vars, v.name ≠ x) (hf : FunctionOf cfg ctx x (residualExpr (l, r)) f)
    (hno : ∀ u y, f u = some y → 10 ^ (-(cfg.prec : Int)) ≤ |y|) :
    Finishes (fun n => eval cfg n (.equation [(l, r)] [x]) ctx) (.ok []) := by
  obtain ⟨vs, h1, h2⟩ := C64_procedure hfresh hf
  have : found f (10 ^ (-(cfg.prec : Int))) = [] := by
    rw [List.eq_nil_iff_forall_not_mem]
    intro u hu
    obtain ⟨y, hy1, hy2⟩ := found_small hu
    exact absurd hy2 (not_lt.2 (hno u y hy1))
  rw [this] at h2
  have : vs = [] := by simpa [reported, distinct] using h2
  subst this
  exact h1

theorem two_of_map {l : List F} {y z : ℝ} (h : l.map Exact.val = [y, z].map some) :
    ∃ a b, l = [a, b] ∧ Exact.val a = some y ∧ Exact.val b = some z := by
  match l, h with
  | [a, b], h =>
    simp only [List.map_cons, List.map_nil, List.cons.injEq, and_true] at h
    exact ⟨a, b, rfl, h.1, h.2⟩
  | [], h => simp at h
  | [_], h => simp at h
  | _ :: _ :: _ :: _, h => simp at h

/-- The step `10^-PREC` and the unit of the last printed decimal. -/
theorem unit_step (hp : 2 ≤ cfg.prec) : (10 : ℝ) ^ (cfg.prec - 2) * 10 ^ (-(cfg.prec : Int)) = 1 / 100 := by
  obtain ⟨k, hk⟩ := Nat.exists_eq_add_of_le' hp
  rw [hk, Nat.add_sub_cancel, zpow_neg, zpow_natCast, pow_add]
  field_simp
  norm_num

/-- **C64.** Quadratic equations with two real solutions `p < q` that are far enough apart, inside the range of the start values, and
decimal numbers with at most `PREC-2` decimals: exactly two solutions are returned, the smaller one first, and rounding them (which
`round` and printing do) gives `p` and `q`. `a` is the leading coefficient. -/
theorem C64_quadratic (hprec : 2 ≤ cfg.prec) (hfresh : ∀ v ∈ ctx.vars, v.name ≠ x) (a p q : ℝ)
    (hf : FunctionOf cfg ctx x (residualExpr (l, r)) fun u => some (a * (u - p) * (u - q)))
    (N M : Int) (hN : p * 10 ^ (cfg.prec - 2) = N) (hM : q * 10 ^ (cfg.prec - 2) = M)
    (hp : -1000 ≤ p) (hpq : p < q) (hq : q ≤ 999) (ha : 1 ≤ 10 * (|a| * (q - p)))
    (hbig : |a| * 8000000 < 10 ^ (-(cfg.prec : Int)) * 2 ^ 999) :
    ∃ s t : F, Finishes (fun n => eval cfg n (.equation [(l, r)] [x]) ctx) (.ok [.scalar s, .scalar t]) ∧
      (∃ y, Exact.val s = some y ∧ |y - p| < 2 * 10 ^ (-(cfg.prec : Int)) / (|a| * (q - p))) ∧
      (∃ z, Exact.val t = some z ∧ |z - q| < 2 * 10 ^ (-(cfg.prec : Int)) / (|a| * (q - p))) ∧
      IsScalar ((Value.scalar s).round (cfg.prec - 2)) p ∧ IsScalar ((Value.scalar t).round (cfg.prec - 2)) q := by
  have hu := unit_step hprec
  generalize hP : cfg.prec - 2 = P at *
  obtain ⟨h, hh⟩ : ∃ h : ℝ, h = 10 ^ (-(cfg.prec : Int)) := ⟨_, rfl⟩
  have hpos : 0 < h := by rw [hh]; exact zpow_pos (by norm_num) _
  have hT : (0 : ℝ) < 10 ^ P := by positivity
  have ha0 : a ≠ 0 := by
    rintro rfl
    rw [abs_zero] at ha
    norm_num at ha
  have hw : 0 < q - p := by linarith
  have hA : 0 < |a| * (q - p) := by have := abs_pos.2 ha0; positivity
  rw [← hh] at hu hbig ⊢
  have hNM : N < M := by
    have : (N : ℝ) < M := by rw [← hN, ← hM]; exact mul_lt_mul_of_pos_right hpq hT
    exact_mod_cast this
  have hw1 : 1 ≤ (q - p) * 10 ^ P := by
    rw [sub_mul, hN, hM]
    have : (N : ℝ) + 1 ≤ M := by exact_mod_cast hNM
    linarith
  have h100 : 100 * h ≤ q - p := by
    by_contra hc
    have : (q - p) * 10 ^ P < 100 * h * 10 ^ P := mul_lt_mul_of_pos_right (not_le.1 hc) hT
    have : 100 * h * 10 ^ P = 1 := by rw [mul_assoc, mul_comm h, hu]; norm_num
    linarith
  -- near a solution means: same rounding
  have hδ : 2 * h / (|a| * (q - p)) ≤ 20 * h := by
    rw [div_le_iff₀ hA]
    nlinarith
  have hround : ∀ (y c : ℝ) (K : Int), c * 10 ^ P = K → |y - c| < 2 * h / (|a| * (q - p)) → roundAway (y * 10 ^ P) = K := by
    intro y c K hK hy
    apply round_near
    rw [← hK, ← sub_mul, abs_mul, abs_of_pos hT]
    have : |y - c| * 10 ^ P < 20 * h * 10 ^ P := mul_lt_mul_of_pos_right (lt_of_lt_of_le hy hδ) hT
    have : 20 * h * 10 ^ P = 1 / 5 := by rw [mul_assoc, mul_comm h, hu]; norm_num
    linarith
  have hclass : ∀ y ∈ found (fun u => some (quad a p q u)) h,
      |y - p| < 2 * h / (|a| * (q - p)) ∨ |y - q| < 2 * h / (|a| * (q - p)) := by
    intro y hy
    obtain ⟨v, hv1, hv2⟩ := found_small hy
    cases hv1
    exact quad_near ha0 hpq hv2
  obtain ⟨y, t, h1, h2, z, hz1, hz2⟩ := quad_found ha0 hpos (by linarith) hp hq hbig
  have hyp : |y - p| < 2 * h / (|a| * (q - p)) := by
    refine (hclass y (by rw [h1]; simp)).resolve_right fun hc => ?_
    have : |y - q| < 20 * h := lt_of_lt_of_le hc hδ
    rw [abs_lt] at this
    rcases h2 with h2 | h2 <;> linarith
  have hzq : |z - q| < 2 * h / (|a| * (q - p)) := by
    refine (hclass z (by rw [h1]; simp [hz1])).resolve_left fun hc => ?_
    have : |z - p| < 20 * h := lt_of_lt_of_le hc hδ
    rw [abs_lt] at this
    linarith
  obtain ⟨b, hb1, hb2, hb3⟩ := reported_two P (a := y) (l := t) hNM.ne (hround y p N hN hyp)
    (fun u hu => (hclass u (by rw [h1]; simp [hu])).imp (hround u p N hN) (hround u q M hM)) ⟨z, hz1, hround z q M hM hzq⟩
  have hbq : |b - q| < 2 * h / (|a| * (q - p)) := by
    refine (hclass b (by rw [h1]; simp [hb1])).resolve_left fun hc => ?_
    exact hNM.ne ((hround b p N hN hc).symm.trans hb2)
  obtain ⟨vs, g1, g2⟩ := C64_procedure hfresh hf
  have hquad : (fun u => some (a * (u - p) * (u - q))) = fun u => some (quad a p q u) := rfl
  rw [hquad, ← hh, h1, hP, hb3] at g2
  obtain ⟨s, t', rfl, hs, ht⟩ := two_of_map g2
  refine ⟨s, t', g1, ⟨y, hs, hyp⟩, ⟨b, ht, hbq⟩, ⟨_, rfl, ?_⟩, ⟨_, rfl, ?_⟩⟩
  · rw [asI32_small (hP ▸ cfg.small_two), roundScalar_val P hs, hround y p N hN hyp, ← hN, mul_div_cancel_right₀ _ hT.ne']
  · rw [asI32_small (hP ▸ cfg.small_two), roundScalar_val P ht, hb2, ← hM, mul_div_cancel_right₀ _ hT.ne']

theorem card_near (c : ℝ) : (Finset.Icc ⌈c - 7 / 10⌉ ⌊c + 7 / 10⌋).card ≤ 2 := by
  rw [Int.card_Icc]
  have h1 := Int.le_ceil (c - 7 / 10)
  have h2 := Int.floor_le (c + 7 / 10)
  have : (⌊c + 7 / 10⌋ : ℝ) - ⌈c - 7 / 10⌉ < 2 := by linarith
  have : ⌊c + 7 / 10⌋ - ⌈c - 7 / 10⌉ < 2 := by exact_mod_cast this
  omega

theorem mem_of_forall {vs : List F} {us : List ℝ} (h : vs.map Exact.val = us.map some) :
    (∀ v ∈ vs, ∃ u ∈ us, Exact.val v = some u) ∧ ∀ u ∈ us, ∃ v ∈ vs, Exact.val v = some u := by
  constructor
  · intro v hv
    have : Exact.val v ∈ us.map some := by rw [← h]; exact List.mem_map_of_mem hv
    obtain ⟨u, hu, huv⟩ := List.mem_map.1 this
    exact ⟨u, hu, huv.symm⟩
  · intro u hu
    have : some u ∈ vs.map Exact.val := by rw [h]; exact List.mem_map_of_mem hu
    obtain ⟨v, hv, huv⟩ := List.mem_map.1 this
    exact ⟨v, hv, huv⟩

/-- **C64.** Quadratic equations with any two real solutions `p < q` that are far enough apart and inside the range of the start
values: every returned number is near a solution, each solution is returned, and at most twice (a solution in the middle between two
decimals may be found on both sides). -/
theorem C64_quadratic_real (hprec : 2 ≤ cfg.prec) (hfresh : ∀ v ∈ ctx.vars, v.name ≠ x) (a p q : ℝ)
    (hf : FunctionOf cfg ctx x (residualExpr (l, r)) fun u => some (a * (u - p) * (u - q)))
    (hp : -1000 ≤ p) (hpq : 200 * 10 ^ (-(cfg.prec : Int)) ≤ q - p) (hq : q ≤ 999) (ha : 1 ≤ 10 * (|a| * (q - p)))
    (hbig : |a| * 8000000 < 10 ^ (-(cfg.prec : Int)) * 2 ^ 999) :
    ∃ vs : List F, Finishes (fun n => eval cfg n (.equation [(l, r)] [x]) ctx) (.ok (vs.map .scalar)) ∧
      (∀ v ∈ vs, ∃ y, Exact.val v = some y ∧ (|y - p| < 2 * 10 ^ (-(cfg.prec : Int)) / (|a| * (q - p)) ∨
        |y - q| < 2 * 10 ^ (-(cfg.prec : Int)) / (|a| * (q - p)))) ∧
      (∃ v ∈ vs, ∃ y, Exact.val v = some y ∧ |y - p| < 2 * 10 ^ (-(cfg.prec : Int)) / (|a| * (q - p))) ∧
      (∃ v ∈ vs, ∃ y, Exact.val v = some y ∧ |y - q| < 2 * 10 ^ (-(cfg.prec : Int)) / (|a| * (q - p))) ∧
      vs.length ≤ 4 := by
  have hu := unit_step hprec
  generalize hP : cfg.prec - 2 = P at *
  obtain ⟨h, hh⟩ : ∃ h : ℝ, h = 10 ^ (-(cfg.prec : Int)) := ⟨_, rfl⟩
  have hpos : 0 < h := by rw [hh]; exact zpow_pos (by norm_num) _
  have hT : (0 : ℝ) < 10 ^ P := by positivity
  have ha0 : a ≠ 0 := by
    rintro rfl
    rw [abs_zero] at ha
    norm_num at ha
  rw [← hh] at hu hbig hpq ⊢
  have hw : 0 < q - p := by linarith
  have hA : 0 < |a| * (q - p) := by have := abs_pos.2 ha0; positivity
  have hδ : 2 * h / (|a| * (q - p)) ≤ 20 * h := by
    rw [div_le_iff₀ hA]
    nlinarith
  have h20 : 20 * h * 10 ^ P = 1 / 5 := by rw [mul_assoc, mul_comm h, hu]; norm_num
  have hclass : ∀ y ∈ found (fun u => some (quad a p q u)) h,
      |y - p| < 2 * h / (|a| * (q - p)) ∨ |y - q| < 2 * h / (|a| * (q - p)) := by
    intro y hy
    obtain ⟨v, hv1, hv2⟩ := found_small hy
    cases hv1
    exact quad_near ha0 (by linarith) hv2
  obtain ⟨y, t, h1, h2, z, hz1, hz2⟩ := quad_found ha0 hpos (by linarith) hp hq hbig
  have hyf : y ∈ found (fun u => some (quad a p q u)) h := by rw [h1]; simp
  have hzf : z ∈ found (fun u => some (quad a p q u)) h := by rw [h1]; simp [hz1]
  have hyp : |y - p| < 2 * h / (|a| * (q - p)) := by
    refine (hclass y hyf).resolve_right fun hc => ?_
    have : |y - q| < 20 * h := lt_of_lt_of_le hc hδ
    rw [abs_lt] at this
    rcases h2 with h2 | h2 <;> linarith
  have hzq : |z - q| < 2 * h / (|a| * (q - p)) := by
    refine (hclass z hzf).resolve_left fun hc => ?_
    have : |z - p| < 20 * h := lt_of_lt_of_le hc hδ
    rw [abs_lt] at this
    linarith
  generalize hL : found (fun u => some (quad a p q u)) h = L at *
  -- numbers that are the same after rounding are near the same solution
  have hsame : ∀ u v, SameRounded P u v → |u - v| ≤ 100 * h := by
    intro u v huv
    have e1 := round_close (u * 10 ^ P)
    have e2 := round_close (v * 10 ^ P)
    unfold SameRounded at huv
    rw [huv] at e1
    have e3 : |u * 10 ^ P - v * 10 ^ P| ≤ 1 := by
      rw [abs_le] at *
      constructor <;> linarith
    rw [← sub_mul, abs_mul, abs_of_pos hT] at e3
    have e4 : 100 * h * 10 ^ P = 1 := by rw [mul_assoc, mul_comm h, hu]; norm_num
    rw [← e4] at e3
    exact le_of_mul_le_mul_right e3 hT
  have hlen : (distinct P L).length ≤ 4 := by
    have hnd : ((distinct P L).map fun u => roundAway (u * 10 ^ P)).Nodup := by
      rw [List.Nodup, List.pairwise_map]
      exact (distinct_pairwise P L).imp fun h => h
    have hsub : ((distinct P L).map fun u => roundAway (u * 10 ^ P)).toFinset ⊆
        Finset.Icc ⌈p * 10 ^ P - 7 / 10⌉ ⌊p * 10 ^ P + 7 / 10⌋ ∪ Finset.Icc ⌈q * 10 ^ P - 7 / 10⌉ ⌊q * 10 ^ P + 7 / 10⌋ := by
      intro k hk
      rw [List.mem_toFinset] at hk
      obtain ⟨u, hu', rfl⟩ := List.mem_map.1 hk
      have hc := round_close (u * 10 ^ P)
      have key : ∀ c : ℝ, |u - c| < 2 * h / (|a| * (q - p)) →
          roundAway (u * 10 ^ P) ∈ Finset.Icc ⌈c * 10 ^ P - 7 / 10⌉ ⌊c * 10 ^ P + 7 / 10⌋ := by
        intro c hcu
        have e1 : |(u - c) * 10 ^ P| < 1 / 5 := by
          rw [abs_mul, abs_of_pos hT, ← h20]
          exact mul_lt_mul_of_pos_right (lt_of_lt_of_le hcu hδ) hT
        rw [sub_mul, abs_lt] at e1
        rw [abs_le] at hc
        rw [Finset.mem_Icc, Int.ceil_le, Int.le_floor]
        constructor <;> linarith
      rw [Finset.mem_union]
      exact (hclass u (distinct_mem P L u hu')).imp (key p) (key q)
    have := Finset.card_le_card hsub
    rw [List.toFinset_card_of_nodup hnd, List.length_map] at this
    have h3 := Finset.card_union_le (Finset.Icc ⌈p * 10 ^ P - 7 / 10⌉ ⌊p * 10 ^ P + 7 / 10⌋) (Finset.Icc ⌈q * 10 ^ P - 7 / 10⌉ ⌊q * 10 ^ P + 7 / 10⌋)
    have h4 := card_near (p * 10 ^ P)
    have h5 := card_near (q * 10 ^ P)
    omega
  obtain ⟨vs, g1, g2⟩ := C64_procedure hfresh hf
  have hquad : (fun u => some (a * (u - p) * (u - q))) = fun u => some (quad a p q u) := rfl
  rw [hquad, ← hh, hL, hP, reported, if_pos (by omega)] at g2
  obtain ⟨m1, m2⟩ := mem_of_forall g2
  refine ⟨vs, g1, ?_, ?_, ?_, ?_⟩
  · intro v hv
    obtain ⟨u, hu1, hu2⟩ := m1 v hv
    exact ⟨u, hu2, hclass u (distinct_mem P L u hu1)⟩
  · obtain ⟨w, hw1, hw2⟩ := distinct_covers P L y hyf
    obtain ⟨v, hv1, hv2⟩ := m2 w hw1
    refine ⟨v, hv1, w, hv2, (hclass w (distinct_mem P L w hw1)).resolve_right fun hc => ?_⟩
    have e1 := hsame _ _ hw2
    have e2 := lt_of_lt_of_le hc hδ
    have e3 := lt_of_lt_of_le hyp hδ
    rw [abs_le] at e1
    rw [abs_lt] at e2 e3
    linarith
  · obtain ⟨w, hw1, hw2⟩ := distinct_covers P L z hzf
    obtain ⟨v, hv1, hv2⟩ := m2 w hw1
    refine ⟨v, hv1, w, hv2, (hclass w (distinct_mem P L w hw1)).resolve_left fun hc => ?_⟩
    have e1 := hsame _ _ hw2
    have e2 := lt_of_lt_of_le hc hδ
    have e3 := lt_of_lt_of_le hzq hδ
    rw [abs_le] at e1
    rw [abs_lt] at e2 e3
    linarith
  · have := congrArg List.length g2
    simp only [List.length_map] at this
    omega

/-! ### A double solution -/

theorem double_run {p h : ℝ} (hh : 0 < h) (h1 : h ≤ 1) (k : Nat) (d : ℝ) (hd : 0 < d) (hlow : h ≤ 4 * d ^ 2) (hsize : d ^ 2 < h * 2 ^ k) :
    ∃ d', newtonFrom (fun u => some (quad 1 p p u)) h (k + 1) (p + d) = some (p + d') ∧ 0 < d' ∧ h ≤ 4 * d' ^ 2 := by
  have hq : ∀ d, quad 1 p p (p + d) = d ^ 2 := fun d => by unfold quad; ring
  induction k generalizing d with
  | zero =>
    refine ⟨d, ?_, hd, hlow⟩
    rw [newtonFrom]
    simp only [hq]
    rw [if_pos (by rw [abs_of_nonneg (by positivity)]; simpa using hsize)]
  | succ k ih =>
    by_cases hs : |quad 1 p p (p + d)| < h
    · refine ⟨d, ?_, hd, hlow⟩
      rw [newtonFrom]
      simp only
      rw [if_pos hs]
    · have hDpos : 0 < 2 * (p + d) + h - p - p := by linarith
      rw [quad_step one_ne_zero hh _ hs hDpos.ne']
      rw [hq, abs_of_nonneg (by positivity), not_lt] at hs
      have hdh : h ≤ d := by
        by_contra hc
        have hc := not_le.1 hc
        nlinarith
      have hD : 2 * (p + d) + h - p - p = 2 * d + h := by ring
      have hD0 : 0 < 2 * d + h := by linarith
      rw [add_sub_cancel_left, hD]
      have hlo : d / 2 ≤ d * (d + h) / (2 * d + h) := by
        rw [le_div_iff₀ hD0]
        nlinarith
      have hhi : d * (d + h) / (2 * d + h) ≤ 2 / 3 * d := by
        rw [div_le_iff₀ hD0]
        nlinarith
      generalize d * (d + h) / (2 * d + h) = d' at hlo hhi ⊢
      have hd' : 0 < d' := by linarith
      apply ih d' hd'
      · nlinarith
      · have hsize' : d ^ 2 < h * (2 ^ k * 2) := by
          rw [← pow_succ]
          exact hsize
        nlinarith

theorem double_reported (hprec : 5 ≤ cfg.prec) (hprec' : cfg.prec ≤ 100) (p : Int) (hp : -1000 ≤ p) (hp' : p < 999) :
    2 ≤ (reported (cfg.prec - 2) (found (fun u => some ((u - p) ^ 2)) (10 ^ (-(cfg.prec : Int))))).length := by
  have hu := unit_step (cfg := cfg) (by omega)
  have hsmall : (10 : ℝ) ^ (-(cfg.prec : Int)) ≤ 1 / 100000 := by
    rw [zpow_neg, zpow_natCast, ← one_div]
    apply one_div_le_one_div_of_le (by norm_num)
    calc (100000 : ℝ) = 10 ^ 5 := by norm_num
      _ ≤ 10 ^ cfg.prec := pow_le_pow_right₀ (by norm_num) hprec
  have hbig : (1 : ℝ) < 10 ^ (-(cfg.prec : Int)) * 2 ^ 999 := by
    rw [zpow_neg, zpow_natCast, ← div_eq_inv_mul, lt_div_iff₀ (by positivity), one_mul]
    calc (10 : ℝ) ^ cfg.prec ≤ 10 ^ 100 := pow_le_pow_right₀ (by norm_num) hprec'
      _ ≤ 16 ^ 100 := pow_le_pow_left₀ (by norm_num) (by norm_num) _
      _ = 2 ^ 400 := by rw [show (16 : ℝ) = 2 ^ 4 by norm_num, ← pow_mul]
      _ < 2 ^ 999 := pow_lt_pow_right₀ (by norm_num) (by norm_num)
  have hpos : (0 : ℝ) < 10 ^ (-(cfg.prec : Int)) := zpow_pos (by norm_num) _
  generalize (10 : ℝ) ^ (-(cfg.prec : Int)) = h at *
  have hquad : (fun u : ℝ => some ((u - p) ^ 2)) = fun u => some (quad 1 p p u) := by
    funext u
    unfold quad
    ring_nf
  rw [hquad]
  -- found from `p`
  have hmem : ∀ j : Int, -1000 ≤ j → j < 1000 → ∀ y, newtonFrom (fun u => some (quad 1 p p u)) h 1000 (j : ℝ) = some y →
      y ∈ found (fun u => some (quad 1 p p u)) h := by
    intro j hj1 hj2 y hy
    unfold found
    rw [List.mem_filterMap]
    refine ⟨(j + 1000).toNat, by rw [List.mem_range]; omega, ?_⟩
    have : (((j + 1000).toNat : ℕ) : ℝ) = (j : ℝ) + 1000 := by
      have h1 : (((j + 1000).toNat : ℕ) : Int) = j + 1000 := Int.toNat_of_nonneg (by omega)
      exact_mod_cast h1
    rw [this, add_sub_cancel_right, hy]
  have h1 := hmem p hp (by omega) p (by
    rw [newtonFrom]
    simp only
    rw [if_pos]
    unfold quad
    simpa using hpos)
  obtain ⟨d, hd1, hd2, hd3⟩ := double_run (p := (p : ℝ)) hpos (by linarith) 999 1 one_pos (by linarith) (by simpa using hbig)
  have h2 := hmem (p + 1) (by omega) (by omega) _ (by push_cast; exact hd1)
  -- they are different after rounding
  have hdd : 100 * h ≤ d := by
    by_contra hc
    have hc := not_le.1 hc
    nlinarith
  have hne : ¬ SameRounded (cfg.prec - 2) ((p : ℝ) + d) (p : ℝ) := by
    intro hc
    unfold SameRounded at hc
    generalize cfg.prec - 2 = P at *
    have e1 : roundAway ((p : ℝ) * 10 ^ P) = p * 10 ^ P := by
      apply round_near
      push_cast
      rw [sub_self, abs_zero]
      norm_num
    have e2 := round_close (((p : ℝ) + d) * 10 ^ P)
    rw [hc, e1, abs_le] at e2
    push_cast at e2
    have e3 : 1 ≤ d * 10 ^ P := by
      have hT : (0 : ℝ) < 10 ^ P := by positivity
      have := mul_le_mul_of_nonneg_right hdd hT.le
      rw [mul_assoc, mul_comm h, hu] at this
      linarith
    linarith [e2.1]
  have hdis : 2 ≤ (distinct (cfg.prec - 2) (found (fun u => some (quad 1 p p u)) h)).length := by
    obtain ⟨w1, hw1, hw1'⟩ := distinct_covers (cfg.prec - 2) _ _ h1
    obtain ⟨w2, hw2, hw2'⟩ := distinct_covers (cfg.prec - 2) _ _ h2
    generalize distinct (cfg.prec - 2) (found (fun u => some (quad 1 p p u)) h) = D at *
    match D, hw1, hw2 with
    | [w], hw1, hw2 =>
      rw [List.mem_singleton] at hw1 hw2
      subst hw1
      subst hw2
      exact absurd (hw2'.trans hw1'.symm) hne
    | _ :: _ :: _, _, _ => simp
  unfold reported
  split
  · exact hdis
  · rename_i hc
    rw [List.length_mergeSort, List.length_take, List.length_mergeSort]
    omega

/-- **C64.** An equation with a double solution, such as `(x-p)^2=0` with an integer `p`: more than one solution is returned, although
there is only one (the iteration stops at a distance of up to `10^(-PREC/2)` of it). -/
theorem C64_double_solution (hprec : 5 ≤ cfg.prec) (hprec' : cfg.prec ≤ 100) (hfresh : ∀ v ∈ ctx.vars, v.name ≠ x) (p : Int)
    (hp : -1000 ≤ p) (hp' : p < 999) (hf : FunctionOf cfg ctx x (residualExpr (l, r)) fun u => some ((u - p) ^ 2)) :
    ∃ vs : List F, Finishes (fun n => eval cfg n (.equation [(l, r)] [x]) ctx) (.ok (vs.map .scalar)) ∧ 2 ≤ vs.length := by
  obtain ⟨vs, g1, g2⟩ := C64_procedure hfresh hf
  refine ⟨vs, g1, ?_⟩
  have hlen := congrArg List.length g2
  simp only [List.length_map] at hlen
  rw [hlen]
  exact double_reported hprec hprec' p hp hp'

/-! ## From the text of an equation -/

/-- The bound on the leading coefficient holds for every coefficient up to `10^90` and precision up to 100. -/
theorem big_bound (hprec : cfg.prec ≤ 100) {a : ℝ} (ha : |a| ≤ 10 ^ 90) : |a| * 8000000 < 10 ^ (-(cfg.prec : Int)) * 2 ^ 999 := by
  rw [zpow_neg, zpow_natCast, ← div_eq_inv_mul, lt_div_iff₀ (by positivity)]
  calc |a| * 8000000 * 10 ^ cfg.prec ≤ 10 ^ 90 * 10 ^ 10 * 10 ^ 100 := by
        apply mul_le_mul
        · exact mul_le_mul ha (by norm_num) (by norm_num) (by positivity)
        · exact pow_le_pow_right₀ (by norm_num) hprec
        · positivity
        · positivity
    _ = 10 ^ 200 := by rw [← pow_add, ← pow_add]
    _ ≤ 16 ^ 200 := pow_le_pow_left₀ (by norm_num) (by norm_num) _
    _ = 2 ^ 800 := by rw [show (16 : ℝ) = 2 ^ 4 by norm_num, ← pow_mul]
    _ < 2 ^ 999 := pow_lt_pow_right₀ (by norm_num) (by norm_num)

variable [UTable] {φ : Defs} {ρ : Env} {le re : Ex} {g k : ℝ → ℝ}

omit [UTable] in
theorem sides (hprec : 3 ≤ cfg.prec) (hl : ∀ u, Denotes cfg φ [] (ρ.set x [.scalar u]) le [.scalar (g u)])
    (hr : ∀ u, Denotes cfg φ [] (ρ.set x [.scalar u]) re [.scalar (k u)]) (hm : Models cfg ctx ρ φ) :
    ∃ l' r' : AST F, (Ex.eqs [le] [re] [x]).tree cfg = .equation [(l', r')] [x] ∧
      (FunctionOf cfg ctx x (residualExpr (l', r')) (fun u => some (g u - k u)) ∨
       FunctionOf cfg ctx x (residualExpr (l', r')) (fun u => some (k u - g u))) := by
  have h1 := functionOf_sub (cfg := cfg) (ctx := ctx) (x := x) (fun a u ha => denotes_eval hprec (hl u) (hm.set x ha))
    (fun a u ha => denotes_eval hprec (hr u) (hm.set x ha))
  have h2 := functionOf_sub (cfg := cfg) (ctx := ctx) (x := x) (fun a u ha => denotes_eval hprec (hr u) (hm.set x ha))
    (fun a u ha => denotes_eval hprec (hl u) (hm.set x ha))
  simp only [Ex.tree, treeAll, textAll, List.zip_cons_cons, List.zip_nil_left, List.zipWith_cons_cons, List.zipWith_nil_left]
  split
  · exact ⟨_, _, rfl, .inl h1⟩
  · exact ⟨_, _, rfl, .inr h2⟩

/-- **C64**, from the text: evaluating `eq(l=r,x)`, where the two sides are everywhere defined functions `g`, `k` of the unused
name `x`, returns what the procedure finds for `g - k`. -/
theorem C64_text (hprec : 3 ≤ cfg.prec) (hwf : (Ex.eqs [le] [re] [x]).WF) (hx : ρ x = none)
    (hl : ∀ u, Denotes cfg φ [] (ρ.set x [.scalar u]) le [.scalar (g u)])
    (hr : ∀ u, Denotes cfg φ [] (ρ.set x [.scalar u]) re [.scalar (k u)]) (hm : Models cfg ctx ρ φ) :
    ∃ vs : List F, Finishes (fun n => quickEval cfg n (Ex.eqs [le] [re] [x]).text ctx) (.ok (vs.map .scalar)) ∧
      vs.map Exact.val = (reported (cfg.prec - 2) (found (fun u => some (g u - k u)) (10 ^ (-(cfg.prec : Int))))).map some := by
  obtain ⟨vs, h1, h2⟩ := C60_formula cfg hprec φ ρ _ _ hwf (.solve le re x g k hx hl hr) ctx hm
  obtain ⟨fs, rfl, h3⟩ := means_scalars h2
  exact ⟨fs, h1, same_map h3⟩

/-- **C64**, from the text: a quadratic equation with two solutions that are decimal numbers. -/
theorem C64_quadratic_text (hprec : 3 ≤ cfg.prec) (hprec' : cfg.prec ≤ 100) (hwf : (Ex.eqs [le] [re] [x]).WF) (hx : ρ x = none)
    (hl : ∀ u, Denotes cfg φ [] (ρ.set x [.scalar u]) le [.scalar (g u)])
    (hr : ∀ u, Denotes cfg φ [] (ρ.set x [.scalar u]) re [.scalar (k u)]) (hm : Models cfg ctx ρ φ)
    (a p q : ℝ) (hquad : ∀ u, g u - k u = a * (u - p) * (u - q))
    (N M : Int) (hN : p * 10 ^ (cfg.prec - 2) = N) (hM : q * 10 ^ (cfg.prec - 2) = M)
    (hp : -1000 ≤ p) (hpq : p < q) (hq : q ≤ 999) (ha : 1 ≤ 10 * (|a| * (q - p))) (hbig : |a| ≤ 10 ^ 90) :
    ∃ s t : F, Finishes (fun n => quickEval cfg n (Ex.eqs [le] [re] [x]).text ctx) (.ok [.scalar s, .scalar t]) ∧
      IsScalar ((Value.scalar s).round (cfg.prec - 2)) p ∧ IsScalar ((Value.scalar t).round (cfg.prec - 2)) q := by
  have hfresh := fresh_of_absent (hm.absent x hx)
  obtain ⟨l', r', htree, hf⟩ := sides hprec hl hr hm
  have hparse := C29_eval cfg _ ctx (C09_parse_text (F := F) cfg _ hwf)
  rw [htree] at hparse
  rcases hf with hf | hf
  · obtain ⟨s, t, h1, -, -, h2, h3⟩ := C64_quadratic (by omega) hfresh a p q (by simpa only [hquad] using hf) N M hN hM hp hpq hq ha
      (big_bound hprec' hbig)
    exact ⟨s, t, (hparse.1 _).1 h1, h2, h3⟩
  · have hf' : FunctionOf cfg ctx x (residualExpr (l', r')) fun u => some (-a * (u - p) * (u - q)) := by
      have : (fun u => some (k u - g u)) = fun u => some (-a * (u - p) * (u - q)) := by
        funext u
        rw [← neg_sub, hquad]
        congr 1
        ring
      rwa [this] at hf
    obtain ⟨s, t, h1, -, -, h2, h3⟩ := C64_quadratic (by omega) hfresh (-a) p q hf' N M hN hM hp hpq hq (by rwa [abs_neg])
      (big_bound hprec' (by rwa [abs_neg]))
    exact ⟨s, t, (hparse.1 _).1 h1, h2, h3⟩

/-- **C64**, from the text: if the two sides always differ by at least `10^-PREC`, the result is empty. -/
theorem C64_none_text (hprec : 3 ≤ cfg.prec) (hwf : (Ex.eqs [le] [re] [x]).WF) (hx : ρ x = none)
    (hl : ∀ u, Denotes cfg φ [] (ρ.set x [.scalar u]) le [.scalar (g u)])
    (hr : ∀ u, Denotes cfg φ [] (ρ.set x [.scalar u]) re [.scalar (k u)]) (hm : Models cfg ctx ρ φ)
    (hno : ∀ u, 10 ^ (-(cfg.prec : Int)) ≤ |g u - k u|) :
    Finishes (fun n => quickEval cfg n (Ex.eqs [le] [re] [x]).text ctx) (.ok []) := by
  obtain ⟨vs, g1, g2⟩ := C64_text hprec hwf hx hl hr hm
  have : found (fun u => some (g u - k u)) (10 ^ (-(cfg.prec : Int))) = [] := by
    rw [List.eq_nil_iff_forall_not_mem]
    intro u hu
    obtain ⟨y, hy1, hy2⟩ := found_small hu
    cases hy1
    exact absurd hy2 (not_lt.2 (hno u))
  rw [this] at g2
  have : vs = [] := by simpa [reported, distinct] using g2
  subst this
  exact g1

/-- **C64**, from the text: more than one result for an equation with a double solution. -/
theorem C64_double_text (hprec : 5 ≤ cfg.prec) (hprec' : cfg.prec ≤ 100) (hwf : (Ex.eqs [le] [re] [x]).WF) (hx : ρ x = none)
    (hl : ∀ u, Denotes cfg φ [] (ρ.set x [.scalar u]) le [.scalar (g u)])
    (hr : ∀ u, Denotes cfg φ [] (ρ.set x [.scalar u]) re [.scalar (k u)]) (hm : Models cfg ctx ρ φ)
    (p : Int) (hp : -1000 ≤ p) (hp' : p < 999) (hsq : ∀ u, g u - k u = (u - p) ^ 2) :
    ∃ vs : List (Value F), Finishes (fun n => quickEval cfg n (Ex.eqs [le] [re] [x]).text ctx) (.ok vs) ∧ 2 ≤ vs.length := by
  obtain ⟨vs, g1, g2⟩ := C64_text (by omega) hwf hx hl hr hm
  refine ⟨_, g1, ?_⟩
  simp only [hsq] at g2
  have hlen := congrArg List.length g2
  simp only [List.length_map] at hlen
  rw [List.length_map, hlen]
  exact double_reported hprec hprec' p hp hp'

end

/-! ## Examples -/

section
variable {F : Type} [FNum F] [ExactReal F] [UTable]

/-- `eq(x^2=9,x)` in the default context: two results, which round to -3 and 3. -/
example (cfg : Cfg) (hprec : 3 ≤ cfg.prec) (hprec' : cfg.prec ≤ 100) :
    ∃ s t : F, Finishes (fun n => quickEval cfg n "eq(x^2=9,x)".toList Context.default) (.ok [.scalar s, .scalar t]) ∧
      IsScalar ((Value.scalar s).round (cfg.prec - 2)) (-3 : ℝ) ∧ IsScalar ((Value.scalar t).round (cfg.prec - 2)) (3 : ℝ) := by
  have htext : "eq(x^2=9,x)".toList =
      (Ex.eqs [.bin .pow (.var ['x']) (.num ['2'] none)] [.num ['9'] none] [['x']]).text := by decide
  rw [htext]
  refine C64_quadratic_text (g := fun u => u ^ (2 : Int)) (k := fun _ => 9) hprec hprec' ?_ ?_ ?_ ?_
    (C60_constants (F := F) cfg).1 1 (-3) 3 ?_ (-3 * 10 ^ (cfg.prec - 2)) (3 * 10 ^ (cfg.prec - 2)) ?_ ?_ ?_ ?_ ?_ ?_ ?_
  · refine ⟨rfl, ⟨⟨wf_name (n := "x") (by decide), wf_num (s := "2") (by decide), by decide, by decide, nofun⟩, trivial⟩,
      ⟨wf_num (s := "9") (by decide), trivial⟩, Or.inl (by simp), by decide, ?_⟩
    intro v hv
    simp only [List.mem_singleton] at hv
    subst hv
    exact nameShape_letters (by decide) (by decide)
  · simp
  · intro u
    exact denotes_bin (.var _ [.scalar u] (by simp [Env.set])) (denotes_digit '2' 2 ((2 : Int) : ℝ) rfl (by norm_num))
      (.pow (.int u 2 (Or.inl (by norm_num))))
  · intro u
    exact denotes_digit '9' 9 9 rfl (by norm_num)
  · intro u
    simp only [zpow_ofNat]
    ring
  all_goals (try push_cast)
  all_goals norm_num

/-- `eq(x^2=0,x)` has at least two results. -/
example (cfg : Cfg) (hprec : 5 ≤ cfg.prec) (hprec' : cfg.prec ≤ 100) :
    ∃ vs : List (Value F), Finishes (fun n => quickEval cfg n "eq(x^2=0,x)".toList Context.default) (.ok vs) ∧ 2 ≤ vs.length := by
  have htext : "eq(x^2=0,x)".toList =
      (Ex.eqs [.bin .pow (.var ['x']) (.num ['2'] none)] [.num ['0'] none] [['x']]).text := by decide
  rw [htext]
  refine C64_double_text (g := fun u => u ^ (2 : Int)) (k := fun _ => 0) hprec hprec' ?_ ?_ ?_ ?_
    (C60_constants (F := F) cfg).1 0 (by norm_num) (by norm_num) ?_
  · refine ⟨rfl, ⟨⟨wf_name (n := "x") (by decide), wf_num (s := "2") (by decide), by decide, by decide, nofun⟩, trivial⟩,
      ⟨wf_num (s := "0") (by decide), trivial⟩, Or.inl (by simp), by decide, ?_⟩
    intro v hv
    simp only [List.mem_singleton] at hv
    subst hv
    exact nameShape_letters (by decide) (by decide)
  · simp
  · intro u
    exact denotes_bin (.var _ [.scalar u] (by simp [Env.set])) (denotes_digit '2' 2 ((2 : Int) : ℝ) rfl (by norm_num))
      (.pow (.int u 2 (Or.inl (by norm_num))))
  · intro u
    exact denotes_digit '0' 0 0 rfl (by norm_num)
  · intro u
    simp only [zpow_ofNat]
    push_cast
    ring

/-- `eq(x^2=-1,x)` has no result. -/
example (cfg : Cfg) (hprec : 3 ≤ cfg.prec) :
    Finishes (fun n => quickEval cfg n "eq(x^2=-1,x)".toList (Context.default : Context F)) (.ok []) := by
  have htext : "eq(x^2=-1,x)".toList =
      (Ex.eqs [.bin .pow (.var ['x']) (.num ['2'] none)] [.neg (.num ['1'] none)] [['x']]).text := by decide
  rw [htext]
  refine C64_none_text (g := fun u => u ^ (2 : Int)) (k := fun _ => -1) hprec ?_ ?_ ?_ ?_ (C60_constants (F := F) cfg).1 ?_
  · refine ⟨rfl, ⟨⟨wf_name (n := "x") (by decide), wf_num (s := "2") (by decide), by decide, by decide, nofun⟩, trivial⟩,
      ⟨⟨wf_num (s := "1") (by decide), by decide⟩, trivial⟩, Or.inl (by simp), by decide, ?_⟩
    intro v hv
    simp only [List.mem_singleton] at hv
    subst hv
    exact nameShape_letters (by decide) (by decide)
  · simp
  · intro u
    exact denotes_bin (.var _ [.scalar u] (by simp [Env.set])) (denotes_digit '2' 2 ((2 : Int) : ℝ) rfl (by norm_num))
      (.pow (.int u 2 (Or.inl (by norm_num))))
  · intro u
    exact .neg _ _ _ (denotes_digit '1' 1 1 rfl (by norm_num)) (.cons (.scalar _) .nil)
  · intro u
    have h1 : (10 : ℝ) ^ (-(cfg.prec : Int)) ≤ 1 := by
      rw [zpow_neg, zpow_natCast]
      exact inv_le_one_of_one_le₀ (one_le_pow₀ (by norm_num))
    have h2 : u ^ (2 : Int) = u ^ 2 := by simp only [zpow_ofNat]
    rw [h2, abs_of_nonneg (by nlinarith [sq_nonneg u])]
    nlinarith [sq_nonneg u]

end
end MUL
