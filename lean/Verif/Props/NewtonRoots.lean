import Verif.Spec.NewtonRoots
import Verif.Proofs.NewtonRoots
import Verif.Props.Newton
import Mathlib.Analysis.Calculus.Deriv.MeanValue
import Mathlib.Analysis.SpecialFunctions.Trigonometric.Deriv
import Mathlib.Analysis.Convex.Mul
/-!
# C87: which solutions of one equation are found
-/

namespace MUL
open Out Spec

set_option linter.unusedSectionVars false

/-- Two numbers with the same rounding are close. -/
theorem same_close {p : Nat} {x y : ℝ} (h : SameRounded p x y) : |x - y| ≤ 10 ^ (-(p : Int)) := by
  have h1 := abs_le.1 (round_close (x * 10 ^ p))
  have h2 := abs_le.1 (round_close (y * 10 ^ p))
  unfold SameRounded at h
  rw [h] at h1
  have hp : (0 : ℝ) < 10 ^ p := by positivity
  have h3 : |x - y| * 10 ^ p ≤ 1 := by
    rw [show |x - y| * 10 ^ p = |(x - y) * 10 ^ p| by rw [abs_mul, abs_of_pos hp], abs_le, sub_mul]
    constructor <;> linarith
  rw [zpow_neg, zpow_natCast, ← one_div, le_div_iff₀ hp]
  exact h3

/-- A number found is reported, up to rounding, unless ten numbers no larger are. -/
theorem reported_covers {p : Nat} {l : List ℝ} {x : ℝ} (hx : x ∈ l) :
    (∃ y ∈ reported p l, SameRounded p x y) ∨
    (reported p l).length = 10 ∧ ∀ y ∈ reported p l, |y| ≤ |x| + 10 ^ (-(p : Int)) := by
  obtain ⟨y, hy, hxy⟩ := distinct_covers p l x hx
  unfold reported
  split
  · exact Or.inl ⟨y, hy, hxy⟩
  · rename_i hlen
    generalize hd : distinct p l = d at *
    set srt := d.mergeSort fun a b => decide (|a| ≤ |b|) with hsrt
    by_cases hmem : y ∈ srt.take 10
    · exact Or.inl ⟨y, (List.mergeSort_perm _ _).mem_iff.2 hmem, hxy⟩
    · refine Or.inr ⟨?_, ?_⟩
      · rw [(List.mergeSort_perm _ _).length_eq, List.length_take, hsrt, (List.mergeSort_perm _ _).length_eq]
        omega
      · intro z hz
        have hz' := (List.mergeSort_perm _ _).mem_iff.1 hz
        have hpw : srt.Pairwise fun a b => decide (|a| ≤ |b|) = true := by
          refine List.pairwise_mergeSort ?_ ?_ d
          · intro a b c h1 h2
            simp only [decide_eq_true_eq] at *
            linarith
          · intro a b
            simp only [Bool.or_eq_true, decide_eq_true_eq]
            exact le_total _ _
        have hy' : y ∈ srt.drop 10 := by
          have : y ∈ srt := (List.mergeSort_perm _ _).mem_iff.2 hy
          rw [← List.take_append_drop 10 srt, List.mem_append] at this
          exact this.resolve_left hmem
        rw [← List.take_append_drop 10 srt, List.pairwise_append] at hpw
        have := hpw.2.2 z hz' y hy'
        simp only [decide_eq_true_eq] at this
        have h2 := same_close hxy
        rw [abs_sub_comm] at h2
        have h3 := abs_sub_abs_le_abs_sub y x
        linarith

theorem reported_mem {p : Nat} {l : List ℝ} {x : ℝ} (hx : x ∈ reported p l) : x ∈ l := by
  unfold reported at hx
  split at hx
  · exact distinct_mem p l x hx
  · have h1 := (List.mergeSort_perm _ _).mem_iff.1 hx
    exact distinct_mem p l x ((List.mergeSort_perm _ _).mem_iff.1 (List.mem_of_mem_take h1))

/-- **C87.** Rises between two bounds follow from bounds on the derivative. -/
theorem C87_slopes_of_deriv {g g' : ℝ → ℝ} {a b m M : ℝ} (hd : ∀ x, a ≤ x → x ≤ b → HasDerivAt g (g' x) x)
    (hlow : ∀ x, a ≤ x → x ≤ b → m ≤ g' x) (hhigh : ∀ x, a ≤ x → x ≤ b → g' x ≤ M) : Slopes g a b m M := by
  intro x y hx hxy hy
  obtain ⟨c, hc, hcs⟩ := exists_hasDerivAt_eq_slope g g' hxy
    (fun u hu => (hd u (hx.trans hu.1) (hu.2.trans hy)).continuousAt.continuousWithinAt)
    (fun u hu => hd u (hx.trans hu.1.le) (hu.2.le.trans hy))
  have h1 := hlow c (hx.trans hc.1.le) (hc.2.le.trans hy)
  have h2 := hhigh c (hx.trans hc.1.le) (hc.2.le.trans hy)
  have hpos : 0 < y - x := by linarith
  rw [eq_div_iff hpos.ne'] at hcs
  constructor <;> nlinarith

section
variable {F : Type} [FNum F] [ExactReal F]
variable {cfg : Cfg} {ctx : Context F} {x : Str} {l r : AST F} {f : ℝ → Option ℝ} {g : ℝ → ℝ} {s m : ℝ}

/-- The values of the results. -/
theorem mem_values {vs : List F} {us : List ℝ} (h : vs.map Exact.val = us.map some) : (∀ u ∈ us, ∃ v ∈ vs, Exact.val v = some u) ∧
    ∀ v ∈ vs, ∃ u ∈ us, Exact.val v = some u := by
  constructor
  · intro u hu
    have : some u ∈ vs.map Exact.val := by rw [h]; exact List.mem_map.2 ⟨u, hu, rfl⟩
    obtain ⟨v, hv, hv'⟩ := List.mem_map.1 this
    exact ⟨v, hv, hv'⟩
  · intro v hv
    have : Exact.val v ∈ us.map some := by rw [← h]; exact List.mem_map.2 ⟨v, hv, rfl⟩
    obtain ⟨u, hu, hu'⟩ := List.mem_map.1 this
    exact ⟨u, hu, hu'.symm⟩

theorem found_values {vs : List F} (e2 : vs.map Exact.val = (reported (cfg.prec - 2) (found f (10 ^ (-(cfg.prec : Int))))).map some)
    (hm : 0 < m) (hbig : m ≤ 10 ^ (-(cfg.prec : Int)) * 10 ^ 20) (h0 : g s = 0) (ht : Tame f g s m (10 ^ (-(cfg.prec : Int))))
    (h1 : -1000 ≤ s) (h2 : s ≤ 999) :
      (∃ v ∈ vs, ∃ y : ℝ, Exact.val v = some y ∧ |y - s| < 10 ^ (-(cfg.prec : Int)) / m + 10 ^ (-((cfg.prec - 2 : Nat) : Int))) ∨
       (vs.length = 10 ∧ ∀ v ∈ vs, ∃ y : ℝ, Exact.val v = some y ∧
          |y| < |s| + 10 ^ (-(cfg.prec : Int)) / m + 10 ^ (-((cfg.prec - 2 : Nat) : Int))) := by
  have hh : (0 : ℝ) < 10 ^ (-(cfg.prec : Int)) := by positivity
  obtain ⟨y, hy, hys⟩ := tame_found hh hm hbig h0 ht h1 h2
  obtain ⟨w1, w2⟩ := mem_values e2
  rcases reported_covers (p := cfg.prec - 2) hy with ⟨z, hz, hz'⟩ | ⟨hlen, hz⟩
  · obtain ⟨v, hv, hv'⟩ := w1 z hz
    refine Or.inl ⟨v, hv, z, hv', ?_⟩
    have h3 := abs_sub_le z y s
    have h4 := same_close hz'
    rw [abs_sub_comm] at h4
    linarith
  · refine Or.inr ⟨?_, ?_⟩
    · have := congrArg List.length e2
      rw [List.length_map, List.length_map, hlen] at this
      exact this
    · intro v hv
      obtain ⟨u, hu, hu'⟩ := w2 v hv
      refine ⟨u, hu', ?_⟩
      have h3 := hz u hu
      have h4 := abs_sub_abs_le_abs_sub y s
      linarith

/-- **C87.** A zero of the difference of the two sides, near which it is well enough behaved, is among the results up to the last
printed decimal, unless ten others are returned that are no larger. -/
theorem C87_found (hfresh : ∀ v ∈ ctx.vars, v.name ≠ x) (hf : FunctionOf cfg ctx x (residualExpr (l, r)) f)
    (hm : 0 < m) (hbig : m ≤ 10 ^ (-(cfg.prec : Int)) * 10 ^ 20) (h0 : g s = 0)
    (ht : Tame f g s m (10 ^ (-(cfg.prec : Int))) ∨ Tame (fun u => (f u).map fun y => -y) g s m (10 ^ (-(cfg.prec : Int))))
    (h1 : -1000 ≤ s) (h2 : s ≤ 999) :
    ∃ vs : List F, Finishes (fun n => eval cfg n (.equation [(l, r)] [x]) ctx) (.ok (vs.map .scalar)) ∧
      ((∃ v ∈ vs, ∃ y : ℝ, Exact.val v = some y ∧ |y - s| < 10 ^ (-(cfg.prec : Int)) / m + 10 ^ (-((cfg.prec - 2 : Nat) : Int))) ∨
       (vs.length = 10 ∧ ∀ v ∈ vs, ∃ y : ℝ, Exact.val v = some y ∧
          |y| < |s| + 10 ^ (-(cfg.prec : Int)) / m + 10 ^ (-((cfg.prec - 2 : Nat) : Int)))) := by
  obtain ⟨vs, e1, e2⟩ := C64_procedure hfresh hf
  refine ⟨vs, e1, ?_⟩
  rcases ht with ht | ht
  · exact found_values e2 hm hbig h0 ht h1 h2
  · rw [← found_opp f] at e2
    exact found_values e2 hm hbig h0 ht h1 h2

/-- What is reported if everything found is within a fifth of the last printed decimal of `s`. -/
theorem reported_near {p : Nat} {L : List ℝ} (hne : L ≠ []) (hnear : ∀ y ∈ L, |y - s| * 10 ^ p < 1 / 5) :
    1 ≤ (reported p L).length ∧ (reported p L).length ≤ 2 ∧
    ∀ N : Int, s * 10 ^ p = N → (reported p L).length = 1 := by
  have hpow : (0 : ℝ) < 10 ^ p := by positivity
  have habs : ∀ y ∈ L, |y * 10 ^ p - s * 10 ^ p| < 1 / 5 := by
    intro y hy
    have := hnear y hy
    rwa [← sub_mul, abs_mul, abs_of_pos hpow]
  have hpair := distinct_pairwise p L
  have hsub := distinct_mem p L
  have hnil : distinct p L ≠ [] := by
    obtain ⟨a, ha⟩ := List.exists_mem_of_ne_nil L hne
    obtain ⟨b, hb, -⟩ := distinct_covers p L a ha
    exact List.ne_nil_of_mem hb
  have hlow : 1 ≤ (distinct p L).length := List.length_pos_iff.2 hnil
  have hnodup : ((distinct p L).map fun y => roundAway (y * 10 ^ p)).Nodup := by
    rw [List.nodup_iff_pairwise_ne, List.pairwise_map]
    exact hpair
  have hin : ∀ y ∈ distinct p L, roundAway (y * 10 ^ p) ∈ Finset.Icc ⌈s * 10 ^ p - 7 / 10⌉ ⌊s * 10 ^ p + 7 / 10⌋ := by
    intro y hy
    have h1 := abs_lt.1 (habs y (hsub y hy))
    have h2 := abs_le.1 (round_close (y * 10 ^ p))
    rw [Finset.mem_Icc, Int.ceil_le, Int.le_floor]
    constructor <;> linarith
  have hcard : (distinct p L).length ≤ 2 := by
    have h1 := List.toFinset_card_of_nodup hnodup
    rw [List.length_map] at h1
    rw [← h1]
    refine le_trans (Finset.card_le_card ?_) (card_near (s * 10 ^ p))
    intro z hz
    rw [List.mem_toFinset, List.mem_map] at hz
    obtain ⟨y, hy, rfl⟩ := hz
    exact hin y hy
  have hrep : reported p L = distinct p L := by
    unfold reported
    rw [if_pos (by omega)]
  rw [hrep]
  refine ⟨hlow, hcard, ?_⟩
  intro N hN
  have hall : ∀ y ∈ distinct p L, roundAway (y * 10 ^ p) = N := by
    intro y hy
    apply round_near
    have := habs y (hsub y hy)
    rw [hN] at this
    linarith
  match hd : distinct p L, hlow, hpair with
  | [_], _, _ => rfl
  | a :: b :: t, _, hp' =>
    exfalso
    rw [List.pairwise_cons] at hp'
    refine hp'.1 b (by simp) ?_
    unfold SameRounded
    rw [hall a (by simp [hd]), hall b (by simp [hd])]

theorem unique_values {vs : List F} (hprec : 2 ≤ cfg.prec)
    (e2 : vs.map Exact.val = (reported (cfg.prec - 2) (found (fun u => some (g u)) (10 ^ (-(cfg.prec : Int))))).map some)
    (hm : 0 < m) (hbig : m ≤ 10 ^ (-(cfg.prec : Int)) * 10 ^ 20) (h0 : g s = 0)
    (ht : Tame (fun u => some (g u)) g s m (10 ^ (-(cfg.prec : Int)))) (h1 : -1000 ≤ s) (h2 : s ≤ 999)
    (m₀ : ℝ) (hm₀ : 1 / 20 ≤ m₀) (hrise : ∀ u v, u < v → m₀ * (v - u) ≤ g v - g u) :
      1 ≤ vs.length ∧ vs.length ≤ 2 ∧
      (∀ v ∈ vs, ∃ y : ℝ, Exact.val v = some y ∧ |y - s| < 10 ^ (-(cfg.prec : Int)) / m₀) ∧
      ∀ N : Int, s * 10 ^ (cfg.prec - 2) = N → ∃ v, vs = [v] ∧ IsScalar ((Value.scalar v).round (cfg.prec - 2)) s := by
  have hh : (0 : ℝ) < 10 ^ (-(cfg.prec : Int)) := by positivity
  obtain ⟨y, hy, -⟩ := tame_found hh hm hbig h0 ht h1 h2
  obtain ⟨w1, w2⟩ := mem_values e2
  have hm0 : 0 < m₀ := by linarith
  have hclose : ∀ z ∈ found (fun u => some (g u)) (10 ^ (-(cfg.prec : Int))), |z - s| < 10 ^ (-(cfg.prec : Int)) / m₀ := by
    intro z hz
    obtain ⟨v, hv, hv'⟩ := found_small hz
    cases hv
    rw [lt_div_iff₀ hm0]
    refine lt_of_le_of_lt ?_ hv'
    rcases lt_trichotomy z s with h | rfl | h
    · have := hrise z s h
      rw [h0] at this
      rw [abs_of_neg (by linarith : z - s < 0)]
      exact le_trans (by linarith) (neg_le_abs _)
    · simp
    · have := hrise s z h
      rw [h0] at this
      rw [abs_of_pos (by linarith : 0 < z - s)]
      exact le_trans (by linarith) (le_abs_self _)
  have hunit := unit_step (cfg := cfg) hprec
  have hpow : (0 : ℝ) < 10 ^ (cfg.prec - 2) := by positivity
  have hfifth : ∀ z : ℝ, |z - s| < 10 ^ (-(cfg.prec : Int)) / m₀ → |z - s| * 10 ^ (cfg.prec - 2) < 1 / 5 := by
    intro z hz
    rw [lt_div_iff₀ hm0] at hz
    have hz' : |z - s| < 20 * 10 ^ (-(cfg.prec : Int)) := by nlinarith [abs_nonneg (z - s)]
    calc |z - s| * 10 ^ (cfg.prec - 2) < 20 * 10 ^ (-(cfg.prec : Int)) * 10 ^ (cfg.prec - 2) := mul_lt_mul_of_pos_right hz' hpow
      _ = 20 * (10 ^ (cfg.prec - 2) * 10 ^ (-(cfg.prec : Int))) := by ring
      _ = 1 / 5 := by rw [hunit]; norm_num
  obtain ⟨k1, k2, k3⟩ := reported_near (s := s) (p := cfg.prec - 2) (List.ne_nil_of_mem hy) fun z hz => hfifth z (hclose z hz)
  have hlen : vs.length = (reported (cfg.prec - 2) (found (fun u => some (g u)) (10 ^ (-(cfg.prec : Int))))).length := by
    have := congrArg List.length e2
    rw [List.length_map, List.length_map] at this
    exact this
  have hvals : ∀ v ∈ vs, ∃ y : ℝ, Exact.val v = some y ∧ |y - s| < 10 ^ (-(cfg.prec : Int)) / m₀ := by
    intro v hv
    obtain ⟨u, hu, hu'⟩ := w2 v hv
    exact ⟨u, hu', hclose u (reported_mem hu)⟩
  refine ⟨by omega, by omega, hvals, ?_⟩
  intro N hN
  have h1' : vs.length = 1 := by rw [hlen]; exact k3 N hN
  obtain ⟨v, rfl⟩ := List.length_eq_one_iff.1 h1'
  refine ⟨v, rfl, ?_⟩
  obtain ⟨z, hz, hz'⟩ := hvals v (by simp)
  refine ⟨_, rfl, ?_⟩
  have hr : roundAway (z * 10 ^ (cfg.prec - 2)) = N := by
    apply round_near
    rw [← hN, ← sub_mul, abs_mul, abs_of_pos hpow]
    have := hfifth z hz'
    linarith
  rw [asI32_small cfg.small_two, roundScalar_val _ hz, hr, ← hN, mul_div_cancel_right₀ _ hpow.ne']
/-- **C87.** If the difference of the two sides is everywhere defined and everywhere rises at least by `m₀ ≥ 1/20` per unit, and it is
well behaved near its zero, then there are one or two results, all of them within `10^-PREC/m₀` of the zero, and only one if the zero
has no more than `PREC-2` decimals; rounding gives the zero then. -/
theorem C87_unique (hprec : 2 ≤ cfg.prec) (hfresh : ∀ v ∈ ctx.vars, v.name ≠ x)
    (hf : FunctionOf cfg ctx x (residualExpr (l, r)) fun u => some (g u))
    (hm : 0 < m) (hbig : m ≤ 10 ^ (-(cfg.prec : Int)) * 10 ^ 20) (h0 : g s = 0)
    (ht : Tame (fun u => some (g u)) g s m (10 ^ (-(cfg.prec : Int)))) (h1 : -1000 ≤ s) (h2 : s ≤ 999)
    (m₀ : ℝ) (hm₀ : 1 / 20 ≤ m₀) (hrise : ∀ u v, u < v → m₀ * (v - u) ≤ g v - g u) :
    ∃ vs : List F, Finishes (fun n => eval cfg n (.equation [(l, r)] [x]) ctx) (.ok (vs.map .scalar)) ∧
      1 ≤ vs.length ∧ vs.length ≤ 2 ∧
      (∀ v ∈ vs, ∃ y : ℝ, Exact.val v = some y ∧ |y - s| < 10 ^ (-(cfg.prec : Int)) / m₀) ∧
      ∀ N : Int, s * 10 ^ (cfg.prec - 2) = N → ∃ v, vs = [v] ∧ IsScalar ((Value.scalar v).round (cfg.prec - 2)) s := by
  obtain ⟨vs, e1, e2⟩ := C64_procedure hfresh hf
  exact ⟨vs, e1, unique_values hprec e2 hm hbig h0 ht h1 h2 m₀ hm₀ hrise⟩

end

section
variable {F : Type} [FNum F] [ExactReal F] [UTable]
variable {cfg : Cfg} {ctx : Context F} {φ : Defs} {ρ : Env} {le re : Ex} {x : Str} {g k d : ℝ → ℝ} {s m : ℝ}

/-- The results of an equation given as text, in terms of the difference of the sides or its opposite. -/
theorem equation_text (hprec : 3 ≤ cfg.prec) (hwf : (Ex.eqs [le] [re] [x]).WF) (hx : ρ x = none)
    (hl : ∀ u, Denotes cfg φ [] (ρ.set x [.scalar u]) le [.scalar (g u)])
    (hr : ∀ u, Denotes cfg φ [] (ρ.set x [.scalar u]) re [.scalar (k u)]) (hmod : Models cfg ctx ρ φ)
    (hd : (∀ u, d u = g u - k u) ∨ ∀ u, d u = k u - g u) :
    ∃ vs : List F, Finishes (fun n => quickEval cfg n (Ex.eqs [le] [re] [x]).text ctx) (.ok (vs.map .scalar)) ∧
      vs.map Exact.val = (reported (cfg.prec - 2) (found (fun u => some (d u)) (10 ^ (-(cfg.prec : Int))))).map some := by
  obtain ⟨vs, e1, e2⟩ := C64_text hprec hwf hx hl hr hmod
  refine ⟨vs, e1, ?_⟩
  rcases hd with hd | hd
  · rw [show (fun u => some (d u)) = fun u => some (g u - k u) from funext fun u => by rw [hd]]
    exact e2
  · rw [show (fun u => some (d u)) = fun u => (some (g u - k u)).map fun y => -y from funext fun u => by
      rw [hd, Option.map_some, neg_sub], found_opp fun u => some (g u - k u)]
    exact e2

/-- **C87**, from the text: the difference `d` of the two sides, taken one way or the other, rises through zero at `s`. -/
theorem C87_found_text (hprec : 3 ≤ cfg.prec) (hwf : (Ex.eqs [le] [re] [x]).WF) (hx : ρ x = none)
    (hl : ∀ u, Denotes cfg φ [] (ρ.set x [.scalar u]) le [.scalar (g u)])
    (hr : ∀ u, Denotes cfg φ [] (ρ.set x [.scalar u]) re [.scalar (k u)]) (hmod : Models cfg ctx ρ φ)
    (hd : (∀ u, d u = g u - k u) ∨ ∀ u, d u = k u - g u)
    (hm : 0 < m) (hbig : m ≤ 10 ^ (-(cfg.prec : Int)) * 10 ^ 20) (h0 : g s = k s)
    (ht : Tame (fun u => some (d u)) d s m (10 ^ (-(cfg.prec : Int)))) (h1 : -1000 ≤ s) (h2 : s ≤ 999) :
    ∃ vs : List F, Finishes (fun n => quickEval cfg n (Ex.eqs [le] [re] [x]).text ctx) (.ok (vs.map .scalar)) ∧
      ((∃ v ∈ vs, ∃ y : ℝ, Exact.val v = some y ∧ |y - s| < 10 ^ (-(cfg.prec : Int)) / m + 10 ^ (-((cfg.prec - 2 : Nat) : Int))) ∨
       (vs.length = 10 ∧ ∀ v ∈ vs, ∃ y : ℝ, Exact.val v = some y ∧
          |y| < |s| + 10 ^ (-(cfg.prec : Int)) / m + 10 ^ (-((cfg.prec - 2 : Nat) : Int)))) := by
  obtain ⟨vs, e1, e2⟩ := equation_text hprec hwf hx hl hr hmod hd
  have h0' : d s = 0 := by rcases hd with hd | hd <;> rw [hd, h0, sub_self]
  exact ⟨vs, e1, found_values e2 hm hbig h0' ht h1 h2⟩

/-- **C87**, from the text: the difference `d` of the two sides, taken one way or the other, rises everywhere. -/
theorem C87_unique_text (hprec : 3 ≤ cfg.prec) (hwf : (Ex.eqs [le] [re] [x]).WF) (hx : ρ x = none)
    (hl : ∀ u, Denotes cfg φ [] (ρ.set x [.scalar u]) le [.scalar (g u)])
    (hr : ∀ u, Denotes cfg φ [] (ρ.set x [.scalar u]) re [.scalar (k u)]) (hmod : Models cfg ctx ρ φ)
    (hd : (∀ u, d u = g u - k u) ∨ ∀ u, d u = k u - g u)
    (hm : 0 < m) (hbig : m ≤ 10 ^ (-(cfg.prec : Int)) * 10 ^ 20) (h0 : g s = k s)
    (ht : Tame (fun u => some (d u)) d s m (10 ^ (-(cfg.prec : Int)))) (h1 : -1000 ≤ s) (h2 : s ≤ 999)
    (m₀ : ℝ) (hm₀ : 1 / 20 ≤ m₀) (hrise : ∀ u v, u < v → m₀ * (v - u) ≤ d v - d u) :
    ∃ vs : List F, Finishes (fun n => quickEval cfg n (Ex.eqs [le] [re] [x]).text ctx) (.ok (vs.map .scalar)) ∧
      1 ≤ vs.length ∧ vs.length ≤ 2 ∧
      (∀ v ∈ vs, ∃ y : ℝ, Exact.val v = some y ∧ |y - s| < 10 ^ (-(cfg.prec : Int)) / m₀) ∧
      ∀ N : Int, s * 10 ^ (cfg.prec - 2) = N → ∃ v, vs = [v] ∧ IsScalar ((Value.scalar v).round (cfg.prec - 2)) s := by
  obtain ⟨vs, e1, e2⟩ := equation_text hprec hwf hx hl hr hmod hd
  have h0' : d s = 0 := by rcases hd with hd | hd <;> rw [hd, h0, sub_self]
  exact ⟨vs, e1, unique_values (by omega) e2 hm hbig h0' ht h1 h2 m₀ hm₀ hrise⟩

/-! ## Examples -/

/-- `eq(4*x-sin(x)=4,x)` (Kepler's equation): one or two results, all of them within `10^-PREC/3` of the one real solution. -/
example (cfg : Cfg) (hprec : 3 ≤ cfg.prec) (hprec' : cfg.prec ≤ 19) (s : ℝ) (hs : 4 * s - Real.sin s = 4) :
    ∃ vs : List F, Finishes (fun n => quickEval cfg n "eq(4*x-sin(x)=4,x)".toList Context.default) (.ok (vs.map .scalar)) ∧
      1 ≤ vs.length ∧ vs.length ≤ 2 ∧ ∀ v ∈ vs, ∃ y : ℝ, Exact.val v = some y ∧ |y - s| < 10 ^ (-(cfg.prec : Int)) / 3 := by
  have htext : "eq(4*x-sin(x)=4,x)".toList =
      (Ex.eqs [.bin .sub (.bin .mult (.num ['4'] none) (.var ['x'])) (.fn "sin".toList .sin (.var ['x']))] [.num ['4'] none] [['x']]).text := by decide
  rw [htext]
  have hslope : ∀ a b, Slopes (fun u => 4 * u - Real.sin u - 4) a b 3 5 := fun a b =>
    C87_slopes_of_deriv (g' := fun u => 4 - Real.cos u)
      (fun u _ _ => by simpa using (((hasDerivAt_id u).const_mul 4).sub (Real.hasDerivAt_sin u)).sub_const 4)
      (fun u _ _ => by linarith [Real.cos_le_one u]) (fun u _ _ => by linarith [Real.neg_one_le_cos u])
  have hsin := abs_le.1 (Real.abs_sin_le_one s)
  refine (C87_unique_text (F := F) (g := fun u => 4 * u - Real.sin u) (k := fun _ => 4) (d := fun u => 4 * u - Real.sin u - 4)
    (s := s) (m := 3) hprec ?_ ?_ ?_ ?_ (C60_constants (F := F) cfg).1 (Or.inl fun u => rfl) (by norm_num) ?_ hs
    (.near (fun _ _ _ => rfl) (fun u v h1 h2 h3 => ?_)) (by linarith) (by linarith) 3 (by norm_num)
    (fun u v huv => (hslope u v u v le_rfl huv le_rfl).1)).imp fun vs h => ⟨h.1, h.2.1, h.2.2.1, h.2.2.2.1⟩
  · refine ⟨rfl, ⟨⟨⟨wf_num (s := "4") (by decide), wf_name (n := "x") (by decide), by decide, by decide, nofun⟩, ⟨by decide, wf_name (n := "x") (by decide)⟩, by decide, by decide, nofun⟩, trivial⟩,
      ⟨wf_num (s := "4") (by decide), trivial⟩, Or.inl (by simp), by decide, ?_⟩
    intro v hv
    simp only [List.mem_singleton] at hv
    subst hv
    exact nameShape_letters (by decide) (by decide)
  · simp
  · intro u
    exact denotes_bin (denotes_bin (denotes_digit '4' 4 4 rfl (by norm_num)) (.var _ [.scalar u] (by simp [Env.set])) (.mult (.scalar _ _)))
      (.fn _ _ _ [.scalar u] _ (.var _ _ (by simp [Env.set])) (.cons (.sin u) .nil)) (.sub (.scalar _ _))
  · intro u
    exact denotes_digit '4' 4 4 rfl (by norm_num)
  · have : (10 : ℝ) ^ (-(19 : Int)) ≤ 10 ^ (-(cfg.prec : Int)) := zpow_le_zpow_right₀ (by norm_num) (by omega)
    norm_num at this ⊢
    linarith
  · obtain ⟨k1, k2⟩ := hslope u v u v le_rfl h2 le_rfl
    exact ⟨k1, k2.trans (mul_le_mul_of_nonneg_right (by norm_num) (by linarith))⟩

/-- `eq(x^3+x=2,x)`: one result, which rounds to 1. -/
example (cfg : Cfg) (hprec : 3 ≤ cfg.prec) (hprec' : cfg.prec ≤ 18) :
    ∃ v : F, Finishes (fun n => quickEval cfg n "eq(x^3+x=2,x)".toList Context.default) (.ok [.scalar v]) ∧
      IsScalar ((Value.scalar v).round (cfg.prec - 2)) (1 : ℝ) := by
  have htext : "eq(x^3+x=2,x)".toList =
      (Ex.eqs [.bin .add (.bin .pow (.var ['x']) (.num ['3'] none)) (.var ['x'])] [.num ['2'] none] [['x']]).text := by decide
  rw [htext]
  have hh : (0 : ℝ) < 10 ^ (-(cfg.prec : Int)) := by positivity
  have hh1 : (10 : ℝ) ^ (-(cfg.prec : Int)) ≤ 10 ^ (-(3 : Int)) := zpow_le_zpow_right₀ (by norm_num) (by omega)
  have hh2 : (10 : ℝ) ^ (-(18 : Int)) ≤ 10 ^ (-(cfg.prec : Int)) := zpow_le_zpow_right₀ (by norm_num) (by omega)
  have hceil : ((⌈(1 : ℝ)⌉ : Int) : ℝ) = 1 := by norm_num
  norm_num at hh1 hh2
  refine (C87_unique_text (F := F) (g := fun u => u ^ (3 : Int) + u) (k := fun _ => 2)
    (d := fun u => u ^ (3 : Int) + u - 2)
    (s := 1) (m := 4) hprec ?_ ?_ ?_ ?_ (C60_constants (F := F) cfg).1 (Or.inl fun u => rfl) (by norm_num) ?_ (by norm_num)
    (.convex (fun _ _ _ => rfl) ?_ ?_) (by norm_num) (by norm_num) 1 (by norm_num) ?_).elim fun vs h => by
      obtain ⟨v, rfl, hv⟩ := h.2.2.2.2 (1 * 10 ^ (cfg.prec - 2)) (by push_cast; rfl)
      exact ⟨v, h.1, hv⟩
  · refine ⟨rfl, ⟨⟨⟨wf_name (n := "x") (by decide), wf_num (s := "3") (by decide), by decide, by decide, nofun⟩, wf_name (n := "x") (by decide), by decide, by decide, nofun⟩, trivial⟩,
      ⟨wf_num (s := "2") (by decide), trivial⟩, Or.inl (by simp), by decide, ?_⟩
    intro v hv
    simp only [List.mem_singleton] at hv
    subst hv
    exact nameShape_letters (by decide) (by decide)
  · simp
  · intro u
    exact denotes_bin (denotes_bin (.var _ [.scalar u] (by simp [Env.set])) (denotes_digit '3' 3 ((3 : Int) : ℝ) rfl (by norm_num))
      (.pow (.int u 3 (Or.inl (by norm_num))))) (.var _ [.scalar u] (by simp [Env.set])) (.add (.scalar _ _))
  · intro u
    exact denotes_digit '2' 2 2 rfl (by norm_num)
  · norm_num
    linarith
  · rw [hceil]
    have h3 : ConvexOn ℝ (Set.Ici (0 : ℝ)) fun u : ℝ => u ^ 3 := convexOn_pow 3
    have h4 : ConvexOn ℝ (Set.Ici (0 : ℝ)) fun u : ℝ => u ^ (3 : Int) + u - 2 := by
      have h5 := (h3.add (convexOn_id (convex_Ici (0 : ℝ)))).add (convexOn_const (-2) (convex_Ici (0 : ℝ)))
      refine ⟨h5.1, fun u hu v hv a b ha hb hab => ?_⟩
      have := h5.2 hu hv ha hb hab
      simp only [Pi.add_apply, id, smul_eq_mul, zpow_ofNat] at this ⊢
      linarith
    exact h4.subset (fun u hu => Set.mem_Ici.2 (by linarith [hu.1])) (convex_Icc _ _)
  · rw [hceil]
    intro u v hu huv hv
    have hv2 : v ≤ 2 := by
      rw [zpow_neg, zpow_natCast] at hv
      linarith
    simp only [zpow_ofNat]
    constructor
    · have : 3 ≤ v ^ 2 + v * u + u ^ 2 := by nlinarith
      nlinarith
    · have : v ^ 2 + v * u + u ^ 2 ≤ 79 := by nlinarith
      nlinarith
  · intro u v huv
    simp only [zpow_ofNat]
    nlinarith [mul_nonneg (by linarith : 0 ≤ v - u) (by nlinarith [sq_nonneg (u + v), sq_nonneg u, sq_nonneg v] : 0 ≤ u ^ 2 + u * v + v ^ 2)]

end

end MUL
