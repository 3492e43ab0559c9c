import Verif.Proofs.FloatIntegral
import Verif.Props.FloatDeriv
/-!
# C71: integrals in binary64 arithmetic
-/

set_option linter.unusedSectionVars false

namespace MUL
open Out Spec FArith

/-- The points of an integration: `a`, `fl (a + d)`, `fl (fl (a + d) + d)`, … -/
def walk (a d : ℚ) : Nat → ℚ
  | 0 => a
  | i + 1 => F64.fl (walk a d i + d)

/-- The sum of rounded additions. -/
def sumWalk (q : Nat → ℚ) : Nat → ℚ
  | 0 => q 0
  | i + 1 => F64.fl (sumWalk q i + q (i + 1))

theorem fl_add_error {x y : ℚ} (hx : Representable x) (hy : Representable y) :
    |((F64.fl (x + y) : ℚ) : ℝ) - (x + y)| ≤ |(x : ℝ) + y| / 2 ^ 53 := by
  obtain ⟨i, hi⟩ := F64.representable_multiple hx
  obtain ⟨j, hj⟩ := F64.representable_multiple hy
  have := fl_error_real_multiple (x := x + y) (i + j) (by rw [hi, hj]; push_cast; ring)
  push_cast at this
  exact this

theorem fl_sub_error {x y : ℚ} (hx : Representable x) (hy : Representable y) :
    |((F64.fl (x - y) : ℚ) : ℝ) - (x - y)| ≤ |(x : ℝ) - y| / 2 ^ 53 := by
  have := fl_add_error hx (representable_neg hy)
  push_cast at this
  rwa [← sub_eq_add_neg, ← sub_eq_add_neg] at this

theorem lt_limit_of_le {x : ℚ} (h : |(x : ℝ)| ≤ 2 ^ 1000) : |x| < Binary64.limit := lt_limit_of_real (lt_overflow h)

section
variable {F : Type} [FNum F] [Binary64 F] {u : ℝ} [Libm F u] [UTable]

omit [UTable] in
include u in
/-- The step. -/
theorem width_near (cfg : Cfg) (hp : 4 ≤ cfg.prec) (hp2 : cfg.prec ≤ 25) (hu : u ≤ 1 / 2 ^ 20) {l r : F} {a b : ℚ} {M : ℝ}
    (hl : Binary64.val l = some a) (hr : Binary64.val r = some b) (hab : a < b) (ha : |(a : ℝ)| ≤ M) (hb : |(b : ℝ)| ≤ M)
    (hM : M ≤ 2 ^ 400) (hD : 1 / 2 ^ 400 ≤ (b : ℝ) - a) :
    ∃ d : ℚ, Binary64.val (sliceWidth cfg l r) = some d ∧
      |(d : ℝ) - ((b : ℝ) - a) / 10 ^ (cfg.prec - 3)| ≤ (2 * u + 1 / 2 ^ 50) * (((b : ℝ) - a) / 10 ^ (cfg.prec - 3)) := by
  have hu0 := Libm.nonneg (F := F) (u := u)
  obtain ⟨P, hP, hPe⟩ := Libm.slices (F := F) (u := u) (cfg.prec - 3) (by omega)
  have hN : (10 : ℝ) ≤ 10 ^ (cfg.prec - 3) := by
    calc (10 : ℝ) = 10 ^ 1 := by norm_num
      _ ≤ _ := pow_le_pow_right₀ (by norm_num) (by omega)
  have hN2 : (10 : ℝ) ^ (cfg.prec - 3) ≤ 10 ^ 22 := pow_le_pow_right₀ (by norm_num) (by omega)
  have hab' : (a : ℝ) < b := by exact_mod_cast hab
  have ea := abs_le.1 ha
  have eb := abs_le.1 hb
  rw [show ((cfg.prec - 3 : Nat) : Int) = (cfg.prec : Int) - 3 by omega] at hP
  generalize (10 : ℝ) ^ (cfg.prec - 3) = N at *
  have hlim : |b - a| < Binary64.limit := by
    refine lt_limit_of_le ?_
    push_cast
    rw [abs_of_pos (by linarith)]
    calc (b : ℝ) - a ≤ 2 * 2 ^ 400 := by linarith
      _ = 2 ^ 401 := (pow_succ' 2 400).symm
      _ ≤ _ := pow_le_pow_right₀ (by norm_num) (by norm_num)
  have hw := Binary64.val_sub hr hl hlim
  have hwe := fl_sub_error (Binary64.rep hr) (Binary64.rep hl)
  rw [abs_of_pos (a := (b : ℝ) - a) (by linarith)] at hwe
  have hPe2 : |(P : ℝ) - N| ≤ (u + 1 / 2 ^ 60) * N := by
    refine hPe.trans ?_
    unfold libErr
    have h1 : (1 : ℝ) / 2 ^ 1074 ≤ 1 / 2 ^ 60 := one_div_le_one_div_of_le (by positivity) (pow_le_pow_right₀ (by norm_num) (by norm_num))
    generalize (1 : ℝ) / 2 ^ 1074 = τ at *
    have h2 : (1 : ℝ) / 2 ^ 60 * 1 ≤ 1 / 2 ^ 60 * N := mul_le_mul_of_nonneg_left (by linarith) (by positivity)
    linarith
  generalize hwd : F64.fl (b - a) = w at *
  have hw0 : 0 < (w : ℝ) := by
    have h1 := abs_le.1 hwe
    have : ((b : ℝ) - a) / 2 ^ 53 < b - a := div_lt_self (by linarith) (by norm_num)
    linarith
  have hP0 : 0 < (P : ℝ) := by
    have h1 := abs_le.1 hPe2
    have : (u + 1 / 2 ^ 60) * N ≤ 1 / 2 * N := mul_le_mul_of_nonneg_right (by linarith) (by linarith)
    linarith
  have hP2 : (P : ℝ) ≤ 2 * 10 ^ 22 := by
    have h1 := abs_le.1 hPe2
    have : (u + 1 / 2 ^ 60) * N ≤ 1 / 2 * N := mul_le_mul_of_nonneg_right (by linarith) (by linarith)
    linarith
  have hP1 : 1 ≤ (P : ℝ) := by
    have h1 := abs_le.1 hPe2
    have : (u + 1 / 2 ^ 60) * N ≤ 1 / 2 * N := mul_le_mul_of_nonneg_right (by linarith) (by linarith)
    linarith
  have hwle : (w : ℝ) ≤ 2 ^ 402 := by
    have h1 := abs_le.1 hwe
    have e : (2 : ℝ) ^ 402 = 2 ^ 2 * 2 ^ 400 := pow_add 2 2 400
    rw [e]
    clear hD
    generalize (2 : ℝ) ^ 400 = A at *
    linarith only [h1.2, ea.1, ea.2, eb.2, hM, hab']
  have hqlim : |w / P| < Binary64.limit := by
    refine lt_limit_of_le ?_
    push_cast
    rw [abs_of_pos (by positivity)]
    calc (w : ℝ) / P ≤ w := div_le_self hw0.le hP1
      _ ≤ 2 ^ 402 := hwle
      _ ≤ _ := pow_le_pow_right₀ (by norm_num) (by norm_num)
  have hd := Binary64.val_div hw hP (by exact_mod_cast hP0.ne') hqlim
  refine ⟨_, hd, ?_⟩
  refine (width_bound (by linarith) (by linarith) hu0 hu hwe hPe2 ?_).2.2
  have := fl_error_real (w / P)
  unfold roundErr at this
  push_cast at this
  refine this.trans (max_le le_rfl ?_)
  rw [abs_of_pos (by positivity)]
  have h3 : (1 : ℝ) / 2 ^ 401 ≤ w := by
    have h1 := abs_le.1 hwe
    have e : (1 : ℝ) / 2 ^ 401 = 1 / 2 ^ 400 / 2 := by rw [pow_succ]; field_simp
    rw [e]
    generalize (1 : ℝ) / 2 ^ 400 = A at *
    linarith
  have h4 : (1 : ℝ) / 2 ^ 401 / 2 ^ 80 ≤ w / P := by
    refine div_le_div₀ hw0.le h3 hP0 (hP2.trans (by norm_num))
  have h5 : (1 : ℝ) / 2 ^ 1075 ≤ 1 / 2 ^ 401 / 2 ^ 80 / 2 ^ 53 := by
    rw [div_div, div_div, ← pow_add, ← pow_add]
    exact one_div_le_one_div_of_le (by positivity) (pow_le_pow_right₀ (by norm_num) (by norm_num))
  refine h5.trans ?_
  gcongr

omit [UTable] in
include u in
theorem width_val (cfg : Cfg) (hp : 4 ≤ cfg.prec) (hp2 : cfg.prec ≤ 25) (hu : u ≤ 1 / 2 ^ 20) {l r : F} {a b : ℚ} {M : ℝ}
    (hl : Binary64.val l = some a) (hr : Binary64.val r = some b) (hab : a < b) (ha : |(a : ℝ)| ≤ M) (hb : |(b : ℝ)| ≤ M)
    (hM : M ≤ 2 ^ 400) (hD : 1 / 2 ^ 400 ≤ (b : ℝ) - a) (hMN : M * 10 ^ (cfg.prec - 3) ≤ 2 ^ 45 * ((b : ℝ) - a)) :
    ∃ d : ℚ, Binary64.val (sliceWidth cfg l r) = some d ∧
      Sizes (a : ℝ) b (b - a) (10 ^ (cfg.prec - 3)) M (((b : ℝ) - a) / 10 ^ (cfg.prec - 3)) d u := by
  obtain ⟨d, h1, h2⟩ := width_near (F := F) (u := u) cfg hp hp2 hu hl hr hab ha hb hM hD
  have hN : (10 : ℝ) ≤ 10 ^ (cfg.prec - 3) := by
    calc (10 : ℝ) = 10 ^ 1 := by norm_num
      _ ≤ _ := pow_le_pow_right₀ (by norm_num) (by omega)
  exact ⟨d, h1, by exact_mod_cast hab, rfl, hN, ha, hb, hMN, rfl, Libm.nonneg (F := F), hu, h2⟩

include u in
/-- **C71.** Let `lo` and `hi` be computed exactly, `a < b` (`D = b - a`, `|a|, |b| ≤ M`), `N = 10^(PREC-3)`. Let `f` be bounded by `B` and Lipschitz
with the constant `L` around `[a, b]`, and let `e` be computed to within `ε` of `f`. Then `I(e,x,lo,hi)` ends, and its result is within
`D (5/2 L D/N + 9/8 B/N + 4/3 ε) + (B+ε) (6 u D + 20 M N / 2^52) + 2^-1074` of the integral. -/
theorem C71_integral (cfg : Cfg) (hp : 4 ≤ cfg.prec) (hp2 : cfg.prec ≤ 25) (hu : u ≤ 1 / 2 ^ 20) (φ : Defs) (ρ : EnvR) (e lo hi : Ex) (x : Str)
    (hwf : (Ex.integ e x lo hi).WF) (ctx : Context F) (hm : ModelsR cfg ctx ρ φ) (f : ℝ → ℝ) (a b L B M ε : ℝ)
    (hlo : Rounds cfg u φ [] ρ lo (.scalar ⟨a, 0⟩)) (hhi : Rounds cfg u φ [] ρ hi (.scalar ⟨b, 0⟩)) (hab : a < b)
    (he : ∀ z, RepresentableR z → a - (b - a) / 10 ^ (cfg.prec - 3) ≤ z → z ≤ b →
      Rounds cfg u φ [] (ρ.set x (.scalar ⟨z, 0⟩)) e (.scalar ⟨f z, ε⟩))
    (hL : ∀ s ∈ Set.Icc (a - (b - a) / 10 ^ (cfg.prec - 3)) (b + 2 * ((b - a) / 10 ^ (cfg.prec - 3))),
      ∀ t ∈ Set.Icc (a - (b - a) / 10 ^ (cfg.prec - 3)) (b + 2 * ((b - a) / 10 ^ (cfg.prec - 3))), |f s - f t| ≤ L * |s - t|)
    (hB : ∀ s ∈ Set.Icc (a - (b - a) / 10 ^ (cfg.prec - 3)) (b + 2 * ((b - a) / 10 ^ (cfg.prec - 3))), |f s| ≤ B)
    (ha : |a| ≤ M) (hb : |b| ≤ M) (hMN : M * 10 ^ (cfg.prec - 3) ≤ 2 ^ 45 * (b - a))
    (hM : M ≤ 2 ^ 400) (hD : 1 / 2 ^ 400 ≤ b - a) (hBs : B ≤ 2 ^ 400) (hε : ε ≤ 2 ^ 400) :
    ∃ (v : F) (q : ℚ), Finishes (fun n => quickEval cfg n (Ex.integ e x lo hi).text ctx) (.ok [.scalar v]) ∧ Binary64.val v = some q ∧
      |(q : ℝ) - ∫ s in a..b, f s| ≤ (b - a) * (5 / 2 * L * (b - a) / 10 ^ (cfg.prec - 3) + 9 / 8 * B / 10 ^ (cfg.prec - 3) + 4 / 3 * ε) +
        (B + ε) * (6 * u * (b - a) + 20 * M * 10 ^ (cfg.prec - 3) / 2 ^ 52) + 1 / 2 ^ 1074 := by
  obtain ⟨lv, l1, l2⟩ := rounds_eval (F := F) hlo hm
  obtain ⟨rv, r1, r2⟩ := rounds_eval (F := F) hhi hm
  cases lv <;> simp only [NearV] at l2
  cases rv <;> simp only [NearV] at r2
  rename_i l r
  obtain ⟨a', hl, ha'⟩ := l2
  obtain ⟨b', hr, hb'⟩ := r2
  have := near_zero ha'
  have := near_zero hb'
  simp only at *
  subst a b
  have hab' : a' < b' := by exact_mod_cast hab
  obtain ⟨d, hd, z⟩ := width_val (F := F) cfg hp hp2 hu hl hr hab' ha hb hM hD hMN
  generalize hNdef : (10 : ℝ) ^ (cfg.prec - 3) = N at *
  generalize hHdef : ((b' : ℝ) - a') / N = h at *
  have hh := z.h_pos
  have hM1 := z.M_ge
  have big : ∀ c : ℝ, c ≤ 2 ^ 50 → c * M ≤ 2 ^ 1000 := by
    intro c hc
    have : c * M ≤ 2 ^ 50 * 2 ^ 400 := mul_le_mul hc hM (by linarith) (by positivity)
    refine this.trans ?_
    rw [← pow_add]
    exact pow_le_pow_right₀ (by norm_num) (by norm_num)
  have ra := Binary64.rep hl
  have rd := Binary64.rep hd
  -- the points
  have hN46 : N ≤ 2 ^ 46 := by
    have h1 : M * N ≤ M * 2 ^ 46 := by linarith
    exact le_of_mul_le_mul_left h1 (by linarith [z.D_pos])
  have hstep : ∀ i, Representable (walk a' d i) → (a' : ℝ) ≤ walk a' d i → (walk a' d i : ℝ) < b' →
      |((walk a' d (i + 1) : ℚ) : ℝ) - (walk a' d i + d)| ≤ |(walk a' d i : ℝ) + d| / 2 ^ 53 := fun i h1 _ _ => fl_add_error h1 rd
  have hwalk : ∀ i, (∀ j < i, (walk a' d j : ℝ) < b') → Representable (walk a' d i) ∧
      Binary64.val (stepFrom l (sliceWidth cfg l r) i) = some (walk a' d i) ∧ (a' : ℝ) + 7 / 8 * h * i ≤ walk a' d i := by
    intro i hi
    induction i with
    | zero => exact ⟨ra, hl, by simp [walk]⟩
    | succ i ih =>
      obtain ⟨i1, i2, i3⟩ := ih fun j hj => hi j (by omega)
      have hlow : (a' : ℝ) ≤ walk a' d i := by
        have : 0 ≤ 7 / 8 * h * (i : ℝ) := by positivity
        linarith
      obtain ⟨g1, g2, g3, g4⟩ := z.step_error hlow (hi i (by omega)) (hstep i i1 hlow (hi i (by omega)))
      have hlim : |walk a' d i + d| < Binary64.limit := by
        refine lt_limit_of_le ?_
        push_cast
        exact g4.trans (big 2 (by norm_num))
      refine ⟨F64.representable_fl (F64.fl_no_overflow hlim), Binary64.val_add i2 hd hlim, ?_⟩
      have g5 := abs_le.1 g1
      have g6 := mul_le_mul_of_nonneg_right g2 hh.le
      push_cast
      linarith
  have hex : ∃ i, (b' : ℝ) ≤ walk a' d i := by
    by_contra hno
    push Not at hno
    obtain ⟨i, hi⟩ := exists_nat_gt (((b' : ℝ) - a') / (7 / 8 * h))
    rw [div_lt_iff₀ (by positivity)] at hi
    have := (hwalk i fun j _ => hno j).2.2
    linarith [hno i]
  classical
  obtain ⟨K, hK⟩ : ∃ K, Nat.find hex = K + 1 := by
    refine ⟨Nat.find hex - 1, ?_⟩
    have : Nat.find hex ≠ 0 := by
      intro h0
      have := Nat.find_spec hex
      rw [h0] at this
      exact absurd this (not_le.2 hab)
    omega
  have hend : (b' : ℝ) ≤ walk a' d (K + 1) := hK ▸ Nat.find_spec hex
  have hlt : ∀ i < K + 1, (walk a' d i : ℝ) < b' := fun i hi => not_le.1 (Nat.find_min hex (by omega))
  have hw : ∀ i ≤ K + 1, Representable (walk a' d i) ∧ Binary64.val (stepFrom l (sliceWidth cfg l r) i) = some (walk a' d i) ∧
      (a' : ℝ) + 7 / 8 * h * i ≤ walk a' d i := fun i hi => hwalk i fun j hj => hlt j (by omega)
  have hlow : ∀ i ≤ K + 1, (a' : ℝ) ≤ walk a' d i := by
    intro i hi
    have : 0 ≤ 7 / 8 * h * (i : ℝ) := by positivity
    linarith [(hw i hi).2.2]
  have hκ : (K : ℝ) + 1 ≤ 2 ^ 50 := by
    have h1 := (hw K (by omega)).2.2
    have h2 := hlt K (by omega)
    have h3 : h * (7 / 8 * K) ≤ h * N := by rw [z.hN_eq]; linarith
    have := le_of_mul_le_mul_left h3 hh
    linarith
  -- the points of the slices
  let m : Nat → ℚ := fun i => F64.fl (F64.fl (walk a' d i + F64.fl (walk a' d i - d)) / 2)
  have hpoint : ∀ i < K + 1, Binary64.val (slicePoint l (sliceWidth cfg l r) i) = some (m i) ∧ Representable (m i) ∧
      |(m i : ℝ) - walk a' d i| ≤ 7 / 8 * h ∧ (m i : ℝ) ∈ Set.Icc ((a' : ℝ) - h) b' := by
    intro i hi
    obtain ⟨w1, w2, _⟩ := hw i (by omega)
    have hs1 := fl_sub_error w1 rd
    have lim1 : |walk a' d i - d| < Binary64.limit := by
      refine lt_limit_of_le ?_
      push_cast
      have : |(walk a' d i : ℝ) - d| ≤ 2 * M := by
        refine (abs_sub _ _).trans ?_
        have e1 := (z.step_error (hlow i (by omega)) (hlt i hi) (hstep i w1 (hlow i (by omega)) (hlt i hi))).2.2.1
        have e2 := z.d_bounds
        rw [abs_of_nonneg (a := (d : ℝ)) (by linarith)]
        linarith [z.h_le]
      exact this.trans (big 2 (by norm_num))
    have v1 := Binary64.val_sub w2 hd lim1
    have rs1 : Representable (F64.fl (walk a' d i - d)) := F64.representable_fl (F64.fl_no_overflow lim1)
    have hs2 := fl_add_error w1 rs1
    have hs3 := fl_error_real (F64.fl (walk a' d i + F64.fl (walk a' d i - d)) / 2)
    unfold roundErr at hs3
    have hs3' : |(m i : ℝ) - ((F64.fl (walk a' d i + F64.fl (walk a' d i - d)) : ℚ) : ℝ) / 2| ≤
        |((F64.fl (walk a' d i + F64.fl (walk a' d i - d)) : ℚ) : ℝ) / 2| / 2 ^ 53 + M / 2 ^ 53 := by
      push_cast at hs3
      refine hs3.trans (max_le ?_ ?_)
      · have : 0 ≤ M / 2 ^ 53 := by
          have := z.D_pos
          have : 0 ≤ M := by linarith
          positivity
        linarith
      · have h1 : (1 : ℝ) / 2 ^ 1075 ≤ M / 2 ^ 53 := by
          have h2 : 1 / 2 ^ 401 ≤ M := by
            have e : (1 : ℝ) / 2 ^ 401 = 1 / 2 ^ 400 / 2 := by rw [div_div, pow_succ]
            rw [e]
            generalize (1 : ℝ) / 2 ^ 400 = A at *
            linarith only [hM1, hD]
          calc (1 : ℝ) / 2 ^ 1075 ≤ 1 / 2 ^ 454 := one_div_le_one_div_of_le (by positivity) (pow_le_pow_right₀ (by norm_num) (by norm_num))
            _ = 1 / 2 ^ 401 / 2 ^ 53 := by rw [div_div, ← pow_add]
            _ ≤ _ := by gcongr
        have h2 := abs_nonneg (((F64.fl (walk a' d i + F64.fl (walk a' d i - d)) : ℚ) : ℝ) / 2)
        have h3 : 0 ≤ |((F64.fl (walk a' d i + F64.fl (walk a' d i - d)) : ℚ) : ℝ) / 2| / 2 ^ 53 := by positivity
        exact h1.trans (le_add_of_nonneg_left h3)
    obtain ⟨p1, p2, p3, p4, p5⟩ := z.point_error (hlow i (by omega)) (hlt i hi) hs1 hs2 hs3'
    have lim2 : |walk a' d i + F64.fl (walk a' d i - d)| < Binary64.limit := by
      refine lt_limit_of_le ?_
      push_cast
      exact p4.trans (big 4 (by norm_num))
    have v2 := Binary64.val_add w2 v1 lim2
    have lim3 : |F64.fl (walk a' d i + F64.fl (walk a' d i - d)) / 2| < Binary64.limit := by
      refine lt_limit_of_le ?_
      push_cast
      exact p5.trans (big 4 (by norm_num))
    have v3 := Binary64.val_div v2 (val_int (F := F) (n := 2) (by norm_num)) (by norm_num) (by exact_mod_cast lim3)
    refine ⟨?_, F64.representable_fl (F64.fl_no_overflow lim3), p1, p2⟩
    exact_mod_cast v3
  -- the values
  have hvals : ∀ i, ∃ (v : F) (q : ℚ), i < K + 1 →
      Finishes (fun n => eval cfg n (e.tree cfg) (setVar ctx x (slicePoint l (sliceWidth cfg l r) i))) (.ok [.scalar v]) ∧
      Binary64.val v = some q ∧ |(q : ℝ) - f (m i)| ≤ ε := by
    intro i
    by_cases hi : i < K + 1
    · obtain ⟨q1, q2, q3, q4⟩ := hpoint i hi
      obtain ⟨y, f1, n1⟩ := rounds_eval (F := F) (he (m i) ⟨m i, q2, rfl⟩ q4.1 q4.2) (hm.set x ⟨m i, q1, by simp⟩)
      cases y <;> simp only [NearV] at n1
      obtain ⟨q, v1, e1⟩ := n1
      exact ⟨_, q, fun _ => ⟨f1, v1, e1⟩⟩
    · exact ⟨l, 0, fun h => absurd h hi⟩
  choose y q hyq using hvals
  have hε0 : 0 ≤ ε := (abs_nonneg _).trans (hyq 0 (by omega)).2.2
  have hbd : ∀ i < K + 1, |(q i : ℝ)| ≤ B + ε := by
    intro i hi
    have h1 := hB (m i) ⟨(hpoint i hi).2.2.2.1, by linarith [(hpoint i hi).2.2.2.2]⟩
    have h2 := (hyq i hi).2.2
    calc |(q i : ℝ)| = |((q i : ℝ) - f (m i)) + f (m i)| := by ring_nf
      _ ≤ _ := abs_add_le _ _
      _ ≤ _ := by linarith
  have hY : B + ε ≤ 2 ^ 401 := by
    rw [show (2 : ℝ) ^ 401 = 2 * 2 ^ 400 from pow_succ' 2 400]
    clear hM hD
    generalize (2 : ℝ) ^ 400 = A at *
    linarith
  have hY0 : 0 ≤ B + ε := (abs_nonneg _).trans (hbd 0 (by omega))
  have hsumlim : ∀ s : ℝ, ∀ i ≤ K, |s| ≤ 5 / 4 * (((i : ℝ) + 1) * (B + ε)) → |s| ≤ 2 ^ 452 := by
    intro s i hi h1
    have h2 : (i : ℝ) + 1 ≤ 2 ^ 50 := by
      have : (i : ℝ) ≤ K := by exact_mod_cast hi
      linarith
    have h3 : ((i : ℝ) + 1) * (B + ε) ≤ 2 ^ 50 * 2 ^ 401 := mul_le_mul h2 hY hY0 (by positivity)
    rw [← pow_add] at h3
    rw [show (2 : ℝ) ^ 452 = 2 * 2 ^ (50 + 401) from pow_succ' 2 451]
    generalize (2 : ℝ) ^ (50 + 401) = A at *
    have : 0 ≤ ((i : ℝ) + 1) * (B + ε) := by positivity
    linarith only [h1, h3, this]
  have hsum : ∀ i ≤ K, Binary64.val (sumUp y i) = some (sumWalk q i) ∧
      ∀ j < i, |((sumWalk q (j + 1) : ℚ) : ℝ) - (sumWalk q j + q (j + 1))| ≤ |(sumWalk q j : ℝ) + q (j + 1)| / 2 ^ 53 := by
    intro i hi
    induction i with
    | zero => exact ⟨(hyq 0 (by omega)).2.1, by omega⟩
    | succ i ih =>
      obtain ⟨s1, s2⟩ := ih (by omega)
      have hsz := (sum_error (S := fun j => ((sumWalk q j : ℚ) : ℝ)) (y := fun j => (q j : ℝ)) (K := i) (Y := B + ε)
        (fun j hj => hbd j (by omega)) rfl s2 (by
          have : (i : ℝ) ≤ K := by exact_mod_cast (by omega : i ≤ K)
          linarith) i le_rfl).2
      have hsz2 := hsumlim _ i (by omega) hsz
      have hq1 := hyq (i + 1) (by omega)
      have hlim : |sumWalk q i + q (i + 1)| < Binary64.limit := by
        refine lt_limit_of_le ?_
        push_cast
        refine (abs_add_le _ _).trans ?_
        have h4 := (hbd (i + 1) (by omega)).trans hY
        have h5 : (2 : ℝ) ^ 401 ≤ 2 ^ 452 := pow_le_pow_right₀ (by norm_num) (by norm_num)
        calc |(sumWalk q i : ℝ)| + |(q (i + 1) : ℝ)| ≤ 2 ^ 452 + 2 ^ 452 := add_le_add hsz2 (h4.trans h5)
          _ = 2 ^ 453 := by rw [pow_succ _ 452, mul_two]
          _ ≤ _ := pow_le_pow_right₀ (by norm_num) (by norm_num)
      refine ⟨Binary64.val_add s1 hq1.2.1 hlim, ?_⟩
      intro j hj
      rcases Nat.lt_succ_iff_lt_or_eq.1 hj with h | rfl
      · exact s2 j h
      · exact fl_add_error (Binary64.rep s1) (Binary64.rep hq1.2.1)
  obtain ⟨s1, s2⟩ := hsum K le_rfl
  have hsz := (sum_error (S := fun j => ((sumWalk q j : ℚ) : ℝ)) (y := fun j => (q j : ℝ)) (K := K) (Y := B + ε)
    (fun j hj => hbd j (by omega)) rfl s2 hκ K le_rfl).2
  have hfin : |sumWalk q K * d| < Binary64.limit := by
    refine lt_limit_of_le ?_
    push_cast
    rw [abs_mul]
    have h1 := hsumlim _ K le_rfl hsz
    have h2 : |(d : ℝ)| ≤ 2 ^ 400 := by
      have e2 := z.d_bounds
      rw [abs_of_nonneg (a := (d : ℝ)) (by linarith)]
      refine le_trans ?_ hM
      linarith [z.h_le]
    refine (mul_le_mul h1 h2 (abs_nonneg _) (by positivity)).trans ?_
    rw [← pow_add]
    exact pow_le_pow_right₀ (by norm_num) (by norm_num)
  have vfin := Binary64.val_mul s1 hd hfin
  refine ⟨_, _, ?_, vfin, ?_⟩
  · refine ((C29_eval cfg _ ctx (C09_parse_text (F := F) cfg _ hwf)).1 _).1 ?_
    have := C41_loop cfg ctx hm.nodup x (e.tree cfg) (lo.tree cfg) (hi.tree cfg) l r l1 r1
      (by rw [Binary64.beq_val hl hr]; simpa using hab'.ne) (by rw [Binary64.lt_val hr hl]; simpa using hab'.le) K
      (fun i hi => by rw [Binary64.lt_val (hw i (by omega)).2.1 hr]; simpa using (by exact_mod_cast hlt i (by omega) : walk a' d i < b'))
      (by rw [Binary64.lt_val (hw (K + 1) le_rfl).2.1 hr]; simpa using (by exact_mod_cast hend : b' ≤ walk a' d (K + 1))) y
      (fun i hi => (hyq i (by omega)).1)
    simpa [Ex.tree] using this
  · refine z.integral_error (t := fun i => ((walk a' d i : ℚ) : ℝ)) (m := fun i => ((m i : ℚ) : ℝ)) (y := fun i => ((q i : ℚ) : ℝ))
      (S := fun i => ((sumWalk q i : ℚ) : ℝ)) (K := K) rfl (fun i hi => hlow i (by omega)) hlt hend
      (fun i hi => hstep i (hw i (by omega)).1 (hlow i (by omega)) (hlt i hi)) (fun i hi => (hpoint i hi).2.2.1) hL hB
      (fun i hi => (hyq i hi).2.2) rfl s2 ?_
    have := fl_error_real (sumWalk q K * d)
    unfold roundErr at this
    push_cast at this
    refine this.trans (max_le ?_ ?_)
    · exact le_add_of_nonneg_right (by positivity)
    · have h1 : (1 : ℝ) / 2 ^ 1075 ≤ 1 / 2 ^ 1074 := one_div_le_one_div_of_le (by positivity) (pow_le_pow_right₀ (by norm_num) (by norm_num))
      exact h1.trans (le_add_of_nonneg_left (by positivity))

/-- **C73.** In general `I(e,x,a,b)` with `a<b` never returns if the points `a`, `a+dx`, `(a+dx)+dx`, … never reach `b` and the values of the
integrand are numbers. -/
theorem C73_never (cfg : Cfg) (e lo hi : Ex) (x : Str) (hwf : (Ex.integ e x lo hi).WF) (ctx : Context F) (hd : NoDupVars ctx) (l r : F)
    (a b : ℚ) (hlo : Finishes (fun n => eval cfg n (lo.tree cfg) ctx) (.ok [.scalar l])) (hl : Binary64.val l = some a)
    (hhi : Finishes (fun n => eval cfg n (hi.tree cfg) ctx) (.ok [.scalar r])) (hr : Binary64.val r = some b) (hab : a < b)
    (hlt : ∀ i, FArith.lt (stepFrom l (sliceWidth cfg l r) i) r = true)
    (he : ∀ p : F, ∃ ys : List F, Finishes (fun n => eval cfg n (e.tree cfg) (setVar ctx x p)) (.ok (ys.map .scalar))) :
    Diverges (fun n => quickEval cfg n (Ex.integ e x lo hi).text ctx) := by
  refine (C29_no_outcome cfg _ ctx (C09_parse_text (F := F) cfg _ hwf)).2.1 ?_
  simp only [Ex.tree]
  exact C43_never cfg ctx hd x _ _ _ l r hlo hhi (by rw [Binary64.beq_val hl hr]; simpa using hab.ne)
    (by rw [Binary64.lt_val hr hl]; simpa using hab.le) hlt (fun i => he _)

include u in
/-- **C73.** If the lower bound `a` is a number of size at least `2^55 (b-a) / 10^(PREC-3)`, then `I(e,x,a,b)` never returns, for every integrand
whose values are numbers. -/
theorem C73_far (cfg : Cfg) (hp : 4 ≤ cfg.prec) (hp2 : cfg.prec ≤ 25) (hu : u ≤ 1 / 2 ^ 20) (e lo hi : Ex) (x : Str)
    (hwf : (Ex.integ e x lo hi).WF) (ctx : Context F) (hd : NoDupVars ctx) (l r : F) (a b : ℚ)
    (hlo : Finishes (fun n => eval cfg n (lo.tree cfg) ctx) (.ok [.scalar l])) (hl : Binary64.val l = some a)
    (hhi : Finishes (fun n => eval cfg n (hi.tree cfg) ctx) (.ok [.scalar r])) (hr : Binary64.val r = some b)
    (hab : a < b) (hfar : 2 ^ 55 * ((b : ℝ) - a) ≤ |(a : ℝ)| * 10 ^ (cfg.prec - 3))
    (ha : |(a : ℝ)| ≤ 2 ^ 400) (hb : |(b : ℝ)| ≤ 2 ^ 400) (hD : 1 / 2 ^ 400 ≤ (b : ℝ) - a)
    (he : ∀ p : F, ∃ ys : List F, Finishes (fun n => eval cfg n (e.tree cfg) (setVar ctx x p)) (.ok (ys.map .scalar))) :
    Diverges (fun n => quickEval cfg n (Ex.integ e x lo hi).text ctx) := by
  obtain ⟨d, h1, h2⟩ := width_near (F := F) (u := u) cfg hp hp2 hu hl hr hab ha hb le_rfl hD
  have hab' : (a : ℝ) < b := by exact_mod_cast hab
  have hN : (0 : ℝ) < 10 ^ (cfg.prec - 3) := by positivity
  have hu0 := Libm.nonneg (F := F) (u := u)
  have hh : 0 < ((b : ℝ) - a) / 10 ^ (cfg.prec - 3) := div_pos (by linarith) hN
  have hfar' : 2 ^ 55 * (((b : ℝ) - a) / 10 ^ (cfg.prec - 3)) ≤ |(a : ℝ)| := by
    rw [← mul_div_assoc, div_le_iff₀ hN]
    exact hfar
  generalize ((b : ℝ) - a) / 10 ^ (cfg.prec - 3) = h at *
  have h3 := abs_le.1 h2
  have h4 : (2 * u + 1 / 2 ^ 50) * h ≤ 1 / 2 * h := mul_le_mul_of_nonneg_right (by linarith) hh.le
  have hd0 : 0 < (d : ℝ) := by linarith
  have hd1 : (2 : ℝ) ^ 54 * d < |(a : ℝ)| := by linarith
  have hd0' : 0 < d := by exact_mod_cast hd0
  have hd1' : 2 ^ 54 * d < |a| := by exact_mod_cast hd1
  have hlim : |a + d| < Binary64.limit := by
    refine lt_limit_of_le ?_
    push_cast
    refine (abs_add_le _ _).trans ?_
    rw [abs_of_pos hd0]
    have h5 : |(a : ℝ)| + d ≤ 2 ^ 400 + 2 ^ 400 := by
      refine add_le_add ha (le_trans ?_ ha)
      linarith
    refine h5.trans ?_
    rw [← mul_two, ← pow_succ]
    exact pow_le_pow_right₀ (by norm_num) (by norm_num)
  have hne : a ≠ 0 := by
    rintro rfl
    rw [abs_zero] at hd1'
    linarith
  have hstuck : add l (sliceWidth cfg l r) = l := by
    refine eq_of_val ?_ hl hne
    rw [Binary64.val_add hl h1 hlim, fl_absorb (Binary64.rep hl) hd0'.le hd1' hlim]
  exact C73_never cfg e lo hi x hwf ctx hd l r a b hlo hl hhi hr hab
    (fun i => by rw [stepFrom_stuck hstuck, Binary64.lt_val hl hr]; simpa using hab) he

/-! ## Examples -/

include u in
/-- The integral of `x*x` from `0` to `1` is within `10^-4` of `1/3` (default precision). -/
example (cfg : Cfg) (hcfg : cfg.prec = 8) (hu : u ≤ 1 / 2 ^ 30) : ∃ (v : F) (q : ℚ),
    Finishes (fun n => quickEval cfg n "I(x*x,x,0,1)".toList (⟨[], []⟩ : Context F)) (.ok [.scalar v]) ∧ Binary64.val v = some q ∧
      |(q : ℝ) - 1 / 3| ≤ 1 / 10 ^ 4 := by
  have h5 : (10 : ℝ) ^ (cfg.prec - 3) = 10 ^ 5 := by rw [hcfg]
  have num : ∀ (s : String) (n : Nat), digitsNumber s.toList = n → Fits n →
      Rounds cfg u (fun _ => none) [] (fun _ => none) (.num s.toList none) (.scalar ⟨n, 0⟩) := by
    intro s n h1 h2
    have := whole_rounds (cfg := cfg) (u := u) (φ := fun _ => none) (cur := []) (ρ := fun _ => none) (WholeEx.num s.toList (by rw [h1]; exact h2))
    rw [h1] at this
    simpa [Ints.toR, exactR] using this
  have hone : (1 : ℝ) ≤ 2 ^ 400 := one_le_pow₀ (by norm_num)
  have htwo : (2 : ℝ) ≤ 2 ^ 400 := by
    calc (2 : ℝ) = 2 ^ 1 := by norm_num
      _ ≤ 2 ^ 400 := pow_le_pow_right₀ (by norm_num) (by norm_num)
  have range : ∀ s ∈ Set.Icc ((0 : ℝ) - (1 - 0) / 10 ^ 5) (1 + 2 * ((1 - 0) / 10 ^ 5)), |s| ≤ 101 / 100 := by
    intro s hs
    rw [abs_le]
    constructor
    · linarith [hs.1]
    · linarith [hs.2]
  obtain ⟨v, q, h1, h2, h3⟩ := C71_integral (F := F) (u := u) cfg (by omega) (by omega) (hu.trans (by norm_num)) (fun _ => none) (fun _ => none)
    (.bin .mult (.var "x".toList) (.var "x".toList)) (.num "0".toList none) (.num "1".toList none) "x".toList
    ⟨⟨wf_name (n := "x") (by decide), wf_name (n := "x") (by decide), by decide, by decide, nofun⟩, nameShape_letters (by decide) (by decide),
      wf_num (s := "0") (by decide), wf_num (s := "1") (by decide)⟩ ⟨[], []⟩ ⟨by simp [NoDupVars], nofun, nofun⟩ (fun z => z * z)
    0 1 (101 / 50) (11 / 10) 1 (1 / 2 ^ 52) (by simpa using num "0" 0 (by decide) (by unfold Fits; decide))
    (by simpa using num "1" 1 (by decide) (by unfold Fits; decide)) (by norm_num)
    (by
      intro z _ hz1 hz2
      rw [h5] at hz1
      have hz : |z| ≤ 101 / 100 := by rw [abs_le]; constructor <;> linarith
      have hsq : |z * z| ≤ 2 := by
        rw [abs_mul]
        nlinarith [abs_nonneg z]
      have hv : Rounds cfg u (fun _ => none) [] (EnvR.set (fun _ => none) "x".toList (.scalar ⟨z, 0⟩)) (.var "x".toList) (.scalar ⟨z, 0⟩) :=
        .var _ _ (by simp [EnvR.set])
      refine .weaken _ _ _ (.bin .mult _ _ _ _ _ hv hv (.mult (.scalar (.rounded z 0 z 0 ?_)))) (.scalar ?_)
      · simp only [prodErr, mul_zero, zero_mul, add_zero]
        refine lt_overflow (hsq.trans ?_)
        calc (2 : ℝ) = 2 ^ 1 := by norm_num
          _ ≤ 2 ^ 1000 := pow_le_pow_right₀ (by norm_num) (by norm_num)
      · simp only [prodErr, mul_zero, zero_mul, add_zero, zero_add]
        unfold roundErr
        exact max_le (by linarith) (one_div_le_one_div_of_le (by positivity) (pow_le_pow_right₀ (by norm_num) (by norm_num))))
    (by
      intro s hs t ht
      rw [h5] at hs ht
      have e : s * s - t * t = (s + t) * (s - t) := by ring
      rw [e, abs_mul]
      refine mul_le_mul_of_nonneg_right ?_ (abs_nonneg _)
      exact (abs_add_le _ _).trans (by linarith [range s hs, range t ht]))
    (by
      intro s hs
      rw [h5] at hs
      have := range s hs
      rw [abs_mul]
      nlinarith [abs_nonneg s])
    (by norm_num) (by norm_num) (by rw [h5]; norm_num) hone (by
      have : (1 : ℝ) / 2 ^ 400 ≤ 1 / 1 := one_div_le_one_div_of_le (by norm_num) hone
      linarith) (le_trans (by norm_num) htwo) (le_trans (by norm_num) hone)
  refine ⟨v, q, h1, h2, ?_⟩
  have hint : ∫ s in (0 : ℝ)..1, s * s = 1 / 3 := by
    have := integral_pow (a := 0) (b := 1) 2
    simp only [pow_two] at this
    rw [this]
    norm_num
  rw [hint] at h3
  refine h3.trans ?_
  rw [h5]
  have h4 : (1 : ℝ) / 2 ^ 1074 ≤ 1 / 2 ^ 100 := one_div_le_one_div_of_le (by positivity) (pow_le_pow_right₀ (by norm_num) (by norm_num))
  refine (add_le_add le_rfl h4).trans ?_
  have h6 : 6 * u * (1 - 0) ≤ 6 / 2 ^ 30 := by linarith
  have h7 : ((11 : ℝ) / 10 + 1 / 2 ^ 52) * (6 * u * (1 - 0) + 20 * 1 * 10 ^ 5 / 2 ^ 52) ≤ (11 / 10 + 1 / 2 ^ 52) * (6 / 2 ^ 30 + 20 * 1 * 10 ^ 5 / 2 ^ 52) :=
    mul_le_mul_of_nonneg_left (by linarith) (by norm_num)
  refine (add_le_add (add_le_add le_rfl h7) le_rfl).trans ?_
  norm_num

include u in
/-- `I(x,x,10^12,10^12+1)` with the default precision never returns. -/
example (cfg : Cfg) (hcfg : cfg.prec = 8) (hu : u ≤ 1 / 2 ^ 20) :
    Diverges (fun n => quickEval cfg n "I(x,x,1000000000000,1000000000001)".toList (⟨[], []⟩ : Context F)) := by
  have hnum : ∀ (s : String) (n : Nat), digitsNumber s.toList = n → Fits n → WholeEx (fun _ => none) (.num s.toList none) (.scalar n) := by
    intro s n h1 h2
    have := WholeEx.num (ρ := fun _ => none) s.toList
    rw [h1] at this
    exact this h2
  obtain ⟨l, l1, l2⟩ := whole_eval (F := F) (u := u) cfg (fun _ => none) _ _
    (hnum "1000000000000" 1000000000000 (by decide) (by unfold Fits; decide)) ⟨[], []⟩ (by simp [NoDupVars]) nofun
  obtain ⟨r, r1, r2⟩ := whole_eval (F := F) (u := u) cfg (fun _ => none) _ _
    (hnum "1000000000001" 1000000000001 (by decide) (by unfold Fits; decide)) ⟨[], []⟩ (by simp [NoDupVars]) nofun
  have hbig : (2 : ℝ) ^ 50 ≤ 2 ^ 400 := pow_le_pow_right₀ (by norm_num) (by norm_num)
  have hone : (1 : ℝ) ≤ 2 ^ 400 := one_le_pow₀ (by norm_num)
  have hone' : (1 : ℝ) / 2 ^ 400 ≤ 1 / 1 := one_div_le_one_div_of_le (by norm_num) hone
  refine C73_far (F := F) (u := u) cfg (by omega) (by omega) hu (.var "x".toList) (.num "1000000000000".toList none)
    (.num "1000000000001".toList none) "x".toList
    ⟨wf_name (n := "x") (by decide), nameShape_letters (by decide) (by decide), wf_num (s := "1000000000000") (by decide),
      wf_num (s := "1000000000001") (by decide)⟩ ⟨[], []⟩ (by simp [NoDupVars]) l r 1000000000000 1000000000001 l1 (by simpa using l2) r1
    (by simpa using r2) (by norm_num) (by rw [hcfg]; norm_num) (le_trans (by norm_num) hbig) (le_trans (by norm_num) hbig)
    (le_trans hone' (by norm_num)) ?_
  intro p
  refine ⟨[p], by simp, 1, ?_⟩
  simp [eval, evalRec, Ex.tree, setVar, Context.addVar, Context.findVar]

end

/-! An integral that takes one slice too many: with precision 4 (ten slices) the integral of `1` from `0` to `1` is `1.1`, because
ten additions of `0.1` stay below `1`. -/

example : stepFrom (ofInt 0) (sliceWidth ⟨4, false, by decide⟩ (ofInt 0) (ofInt 1)) 10 ≠ (ofInt 1 : F64) ∧
    eval ⟨4, false, by decide⟩ 20 (.integral (.scalar (ofInt 1)) "x".toList (.scalar (ofInt 0)) (.scalar (ofInt 1))) (⟨[], []⟩ : Context F64) =
      .ok [.scalar (F64.lit 11 (-1))] := by
  decide +kernel

end MUL
