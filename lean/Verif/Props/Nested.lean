import Verif.Spec.Nested
import Verif.Props.Accuracy
/-!
# C92: nested derivatives and integrals
-/

set_option linter.unusedSectionVars false

namespace MUL
open Out Spec

/-! ## Difference quotients and sums -/

/-- The difference quotient as a function. -/
noncomputable def quotF (h : ℝ) (f : ℝ → ℝ) : ℝ → ℝ := fun u => (f (u + h) - f u) / h

theorem quot_deriv {h : ℝ} {f f' : ℝ → ℝ} {t : ℝ} (h1 : HasDerivAt f (f' t) t) (h2 : HasDerivAt f (f' (t + h)) (t + h)) :
    HasDerivAt (quotF h f) (quotF h f' t) t := by
  unfold quotF
  exact ((h2.comp_add_const t h).sub h1).div_const h

/-- The `n`-th difference quotient is a value of the `n`-th derivative. -/
theorem quot_iterate {h : ℝ} (hh : 0 < h) (n : Nat) (f : Nat → ℝ → ℝ) (a : ℝ)
    (hf : ∀ i < n, ∀ t ∈ Set.Icc a (a + n * h), HasDerivAt (f i) (f (i + 1) t) t) :
    ∃ ξ ∈ Set.Icc a (a + n * h), (quotF h)^[n] (f 0) a = f n ξ := by
  induction n generalizing f with
  | zero => exact ⟨a, by simp, rfl⟩
  | succ n ih =>
    push_cast at hf ⊢
    obtain ⟨ξ, hξ, he⟩ := ih (fun i => quotF h (f i)) (by
      intro i hi t ht
      have h1 : t ∈ Set.Icc a (a + (n + 1) * h) := ⟨ht.1, by nlinarith [ht.2]⟩
      have h2 : t + h ∈ Set.Icc a (a + (n + 1) * h) := ⟨by linarith [ht.1], by nlinarith [ht.2]⟩
      exact quot_deriv (hf i (by omega) t h1) (hf i (by omega) _ h2))
    rw [Function.iterate_succ_apply]
    have hlt : ξ < ξ + h := by linarith
    have hsub : ∀ t ∈ Set.Icc ξ (ξ + h), t ∈ Set.Icc a (a + (n + 1) * h) := by
      intro t ht
      exact ⟨le_trans hξ.1 ht.1, by have := hξ.2; have := ht.2; nlinarith⟩
    obtain ⟨ζ, hζ, hs⟩ := exists_hasDerivAt_eq_slope (f n) (f (n + 1)) hlt
      (fun t ht => (hf n (by omega) t (hsub t ht)).continuousAt.continuousWithinAt)
      (fun t ht => hf n (by omega) t (hsub t (Set.Ioo_subset_Icc_self ht)))
    refine ⟨ζ, hsub ζ (Set.Ioo_subset_Icc_self hζ), ?_⟩
    rw [he, hs]
    simp [quotF]

theorem riemann_congr {N : Nat} {f g : ℝ → ℝ} {a b : ℝ} (h : ∀ t, SamplePoint N a b t → f t = g t) : riemann N f a b = riemann N g a b := by
  unfold riemann
  congr 2
  exact List.map_congr_left fun i hi => h _ ⟨i, List.mem_range.1 hi, rfl⟩

theorem sum_range_list (N : Nat) (f : Nat → ℝ) : ((List.range N).map f).sum = ∑ i ∈ Finset.range N, f i := by
  rw [Finset.sum_range, ← List.sum_ofFn]
  congr 1
  exact List.ext_getElem (by simp) (by simp)

theorem riemann_eq (N : Nat) (f : ℝ → ℝ) (a b : ℝ) :
    riemann N f a b = (b - a) / N * ∑ i ∈ Finset.range N, f (a + ((i : ℝ) - 1 / 2) * ((b - a) / N)) := by
  unfold riemann
  rw [sum_range_list, smul_eq_mul]

/-- Fubini for the sums. -/
theorem riemann_swap (N : Nat) (f : ℝ → ℝ → ℝ) (a b c d : ℝ) :
    riemann N (fun u => riemann N (fun v => f u v) c d) a b = riemann N (fun v => riemann N (fun u => f u v) a b) c d := by
  simp only [riemann_eq, ← Finset.mul_sum]
  rw [Finset.sum_comm]
  ring

theorem riemann_quot (N : Nat) (f : ℝ → ℝ → ℝ) (a b h v : ℝ) :
    quotF h (fun v => riemann N (fun u => f u v) a b) v = riemann N (fun u => quotF h (f u) v) a b := by
  simp only [riemann_eq, quotF, ← Finset.sum_div, Finset.sum_sub_distrib]
  ring

/-- The sum for the integral from `a` to `u`, as a function of `u`, has as derivative the sum for `f(t) + (t-a)*f'(t)`, divided by the length. -/
theorem riemann_deriv {N : Nat} (hN : 0 < N) {f f' : ℝ → ℝ} {a u : ℝ} (hu : a < u)
    (hf : ∀ t ∈ Set.Icc (a - (u - a) / N / 2) u, HasDerivAt f (f' t) t) :
    HasDerivAt (fun u => riemann N f a u) (riemann N (fun t => f t + (t - a) * f' t) a u / (u - a)) u := by
  simp only [riemann_eq]
  have hN' : (0 : ℝ) < N := by exact_mod_cast hN
  have hin : ∀ i ∈ Finset.range N, a + ((i : ℝ) - 1 / 2) * ((u - a) / N) ∈ Set.Icc (a - (u - a) / N / 2) u := by
    intro i hi
    have hi' : (i : ℝ) + 1 ≤ N := by exact_mod_cast Finset.mem_range.1 hi
    have hd : 0 < (u - a) / N := div_pos (by linarith) hN'
    have hNd : N * ((u - a) / N) = u - a := by field_simp
    have hi0 : (0 : ℝ) ≤ i := Nat.cast_nonneg i
    constructor
    · nlinarith
    · nlinarith
  have hsum : HasDerivAt (fun u => ∑ i ∈ Finset.range N, f (a + ((i : ℝ) - 1 / 2) * ((u - a) / N)))
      (∑ i ∈ Finset.range N, f' (a + ((i : ℝ) - 1 / 2) * ((u - a) / N)) * (((i : ℝ) - 1 / 2) / N)) u := by
    refine HasDerivAt.fun_sum fun i hi => ?_
    have h1 : HasDerivAt (fun u : ℝ => a + ((i : ℝ) - 1 / 2) * ((u - a) / N)) (((i : ℝ) - 1 / 2) / N) u := by
      have := ((((hasDerivAt_id u).sub_const a).div_const (N : ℝ)).const_mul ((i : ℝ) - 1 / 2)).const_add a
      exact this.congr_deriv (by ring)
    exact (hf _ (hin i hi)).comp u h1
  have hlin : HasDerivAt (fun u : ℝ => (u - a) / N) (1 / N) u := ((hasDerivAt_id u).sub_const a).div_const (N : ℝ)
  refine (hlin.mul hsum).congr_deriv ?_
  have hne : u - a ≠ 0 := by linarith [hu]
  rw [Finset.sum_add_distrib]
  have : ∑ i ∈ Finset.range N, (a + ((i : ℝ) - 1 / 2) * ((u - a) / N) - a) * f' (a + ((i : ℝ) - 1 / 2) * ((u - a) / N)) =
      (u - a) * ∑ i ∈ Finset.range N, f' (a + ((i : ℝ) - 1 / 2) * ((u - a) / N)) * (((i : ℝ) - 1 / 2) / N) := by
    rw [Finset.mul_sum]
    refine Finset.sum_congr rfl fun i _ => ?_
    field_simp
    ring
  rw [this]
  generalize ∑ i ∈ Finset.range N, f (a + ((i : ℝ) - 1 / 2) * ((u - a) / N)) = A
  generalize ∑ i ∈ Finset.range N, f' (a + ((i : ℝ) - 1 / 2) * ((u - a) / N)) * (((i : ℝ) - 1 / 2) / N) = B
  field_simp

/-! ## Nested expressions -/

section
variable {F : Type} [FNum F] [ExactReal F] [UTable] {cfg : Cfg} {ctx : Context F} {φ : Defs} {ρ : Env}

theorem set_same (ρ : Env) (x : Str) (v w : List Obj) : (ρ.set x v).set x w = ρ.set x w := by
  funext n
  unfold Env.set
  split <;> rfl

theorem set_swap (ρ : Env) {x y : Str} (hxy : x ≠ y) (v w : List Obj) : (ρ.set x v).set y w = (ρ.set y w).set x v := by
  funext n
  unfold Env.set
  split <;> rename_i h1
  · rw [if_neg (by rw [h1]; exact fun h => hxy h.symm)]
  · rfl

theorem denotes_deriv1 {e a : Ex} {x : Str} {f : ℝ → ℝ} {p : ℝ} (ha : Denotes cfg φ [] ρ a [.scalar p])
    (he : ∀ u, u = p ∨ u = p + 10 ^ (-(cfg.prec : Int)) → Denotes cfg φ [] (ρ.set x [.scalar u]) e [.scalar (f u)]) :
    Denotes cfg φ [] ρ (.deriv e x a) [.scalar (quotF (10 ^ (-(cfg.prec : Int))) f p)] := by
  have h := Denotes.deriv (cfg := cfg) (φ := φ) (cur := []) (ρ := ρ) e x a [p] (fun (_ : Fin 1) => f) (by simpa using ha)
    (by
      intro t ht u hu
      obtain rfl : t = p := by simpa using ht
      simpa using he u hu)
  exact h

theorem denotes_integ1 {e lo hi : Ex} {x : Str} {f : ℝ → ℝ} {a b : ℝ} (hlo : Denotes cfg φ [] ρ lo [.scalar a])
    (hhi : Denotes cfg φ [] ρ hi [.scalar b])
    (he : ∀ u, SamplePoint (10 ^ (cfg.prec - 3)) (min a b) (max a b) u → Denotes cfg φ [] (ρ.set x [.scalar u]) e [.scalar (f u)]) :
    Denotes cfg φ [] ρ (.integ e x lo hi) [.scalar (riemann (10 ^ (cfg.prec - 3)) f (min a b) (max a b))] := by
  have h := Denotes.integ (cfg := cfg) (φ := φ) (cur := []) (ρ := ρ) e x lo hi [a] [b] (fun (_ : Fin 1) => f) (by simpa using hlo)
    (by simpa using hhi) (by
      intro a' ha' b' hb' _ u hu
      obtain rfl : a' = a := by simpa using ha'
      obtain rfl : b' = b := by simpa using hb'
      simpa using he u hu)
  by_cases hab : a = b
  · subst hab
    simpa [pairs, riemann] using h
  · simpa [pairs, hab] using h

/-- **C92.** Mixed derivatives: the order of the variables does not matter, `D(D(e,x,a),y,b)` is `D(D(e,y,b),x,a)`. -/
theorem C92_mixed (hprec : 3 ≤ cfg.prec) (e a b : Ex) (x y : Str) (hxy : x ≠ y) (hwf : (Ex.deriv (.deriv e x a) y b).WF)
    (hwf' : (Ex.deriv (.deriv e y b) x a).WF) (f : ℝ → ℝ → ℝ) (p q : ℝ)
    (he : ∀ u v, Denotes cfg φ [] ((ρ.set x [.scalar u]).set y [.scalar v]) e [.scalar (f u v)])
    (ha : Denotes cfg φ [] ρ a [.scalar p] ∧ ∀ v, Denotes cfg φ [] (ρ.set y [.scalar v]) a [.scalar p])
    (hb : Denotes cfg φ [] ρ b [.scalar q] ∧ ∀ u, Denotes cfg φ [] (ρ.set x [.scalar u]) b [.scalar q])
    (hm : Models cfg ctx ρ φ) :
    ∃ z, Yields cfg ctx (.deriv (.deriv e x a) y b) z ∧ Yields cfg ctx (.deriv (.deriv e y b) x a) z := by
  refine ⟨_, C60_number cfg hprec φ ρ _ _ hwf (denotes_deriv1 hb.1 fun v _ => denotes_deriv1 (f := fun u => f u v) (ha.2 v) fun u _ => ?_) ctx hm, ?_⟩
  · rw [← set_swap ρ hxy]
    exact he u v
  · have := C60_number cfg hprec φ ρ _ _ hwf' (denotes_deriv1 ha.1 fun u _ => denotes_deriv1 (f := fun v => f u v) (hb.2 u) fun v _ => he u v) ctx hm
    refine Eq.mp (congrArg _ ?_) this
    simp only [quotF]
    ring

/-- **C92.** Double integrals: the order of integration does not matter. -/
theorem C92_fubini (hprec : 3 ≤ cfg.prec) (e lo hi lo' hi' : Ex) (x y : Str) (hxy : x ≠ y)
    (hwf : (Ex.integ (.integ e x lo hi) y lo' hi').WF) (hwf' : (Ex.integ (.integ e y lo' hi') x lo hi).WF) (f : ℝ → ℝ → ℝ) (a b c d : ℝ)
    (he : ∀ u v, Denotes cfg φ [] ((ρ.set x [.scalar u]).set y [.scalar v]) e [.scalar (f u v)])
    (hlo : Denotes cfg φ [] ρ lo [.scalar a] ∧ ∀ v, Denotes cfg φ [] (ρ.set y [.scalar v]) lo [.scalar a])
    (hhi : Denotes cfg φ [] ρ hi [.scalar b] ∧ ∀ v, Denotes cfg φ [] (ρ.set y [.scalar v]) hi [.scalar b])
    (hlo' : Denotes cfg φ [] ρ lo' [.scalar c] ∧ ∀ u, Denotes cfg φ [] (ρ.set x [.scalar u]) lo' [.scalar c])
    (hhi' : Denotes cfg φ [] ρ hi' [.scalar d] ∧ ∀ u, Denotes cfg φ [] (ρ.set x [.scalar u]) hi' [.scalar d])
    (hm : Models cfg ctx ρ φ) :
    ∃ z, Yields cfg ctx (.integ (.integ e x lo hi) y lo' hi') z ∧ Yields cfg ctx (.integ (.integ e y lo' hi') x lo hi) z := by
  refine ⟨_, C60_number cfg hprec φ ρ _ _ hwf (denotes_integ1 hlo'.1 hhi'.1 fun v _ => denotes_integ1 (f := fun u => f u v) (hlo.2 v) (hhi.2 v)
    fun u _ => ?_) ctx hm, ?_⟩
  · rw [← set_swap ρ hxy]
    exact he u v
  · have := C60_number cfg hprec φ ρ _ _ hwf' (denotes_integ1 hlo.1 hhi.1 fun u _ => denotes_integ1 (f := fun v => f u v) (hlo'.2 u) (hhi'.2 u)
      fun v _ => he u v) ctx hm
    rw [riemann_swap] at this
    exact this

/-- **C92.** Differentiation under the integral sign: `D(I(e,x,a,b),y,c)` is `I(D(e,y,c),x,a,b)`. -/
theorem C92_leibniz (hprec : 3 ≤ cfg.prec) (e lo hi c : Ex) (x y : Str) (hxy : x ≠ y)
    (hwf : (Ex.deriv (.integ e x lo hi) y c).WF) (hwf' : (Ex.integ (.deriv e y c) x lo hi).WF) (f : ℝ → ℝ → ℝ) (a b q : ℝ)
    (he : ∀ u v, Denotes cfg φ [] ((ρ.set x [.scalar u]).set y [.scalar v]) e [.scalar (f u v)])
    (hlo : Denotes cfg φ [] ρ lo [.scalar a] ∧ ∀ v, Denotes cfg φ [] (ρ.set y [.scalar v]) lo [.scalar a])
    (hhi : Denotes cfg φ [] ρ hi [.scalar b] ∧ ∀ v, Denotes cfg φ [] (ρ.set y [.scalar v]) hi [.scalar b])
    (hc : Denotes cfg φ [] ρ c [.scalar q] ∧ ∀ u, Denotes cfg φ [] (ρ.set x [.scalar u]) c [.scalar q])
    (hm : Models cfg ctx ρ φ) :
    ∃ z, Yields cfg ctx (.deriv (.integ e x lo hi) y c) z ∧ Yields cfg ctx (.integ (.deriv e y c) x lo hi) z := by
  refine ⟨_, C60_number cfg hprec φ ρ _ _ hwf (denotes_deriv1 hc.1 fun v _ => denotes_integ1 (f := fun u => f u v) (hlo.2 v) (hhi.2 v)
    fun u _ => ?_) ctx hm, ?_⟩
  · rw [← set_swap ρ hxy]
    exact he u v
  · have := C60_number cfg hprec φ ρ _ _ hwf' (denotes_integ1 hlo.1 hhi.1 fun u _ => denotes_deriv1 (f := fun v => f u v) (hc.2 u)
      fun v _ => he u v) ctx hm
    rw [← riemann_quot] at this
    exact this

theorem denotes_nthD {e : Ex} {x : Str} {f : ℝ → ℝ} (he : ∀ u, Denotes cfg φ [] (ρ.set x [.scalar u]) e [.scalar (f u)]) (n : Nat) (u : ℝ) :
    Denotes cfg φ [] (ρ.set x [.scalar u]) (nthD x n e) [.scalar ((quotF (10 ^ (-(cfg.prec : Int))))^[n] f u)] := by
  induction n generalizing u with
  | zero => exact he u
  | succ n ih =>
    rw [Function.iterate_succ_apply']
    refine denotes_deriv1 (.var _ _ (by simp [Env.set])) fun w _ => ?_
    rw [set_same]
    exact ih w

theorem nthD_wf {e : Ex} {x : Str} (he : e.WF) (hx : (Ex.deriv e x (.var x)).WF) (n : Nat) : (nthD x n e).WF := by
  induction n with
  | zero => exact he
  | succ n ih => exact ⟨ih, hx.2.1, hx.2.2⟩

/-- **C92.** Higher derivatives: `D(D(...D(e,x,x)...,x,x),x,a)` with `n+1` derivatives is within `L*(n+1)*10^-PREC` of the `(n+1)`-th
derivative at `a`, if that changes by at most `L` per unit between `a` and `a + (n+1)*10^-PREC`. `f i` is the `i`-th derivative. -/
theorem C92_higher (hprec : 3 ≤ cfg.prec) (e a : Ex) (x : Str) (n : Nat) (hwf : (Ex.deriv e x (.var x)).WF) (hwf' : (Ex.deriv e x a).WF)
    (f : Nat → ℝ → ℝ) (L p : ℝ) (he : ∀ u, Denotes cfg φ [] (ρ.set x [.scalar u]) e [.scalar (f 0 u)]) (ha : Denotes cfg φ [] ρ a [.scalar p])
    (hm : Models cfg ctx ρ φ)
    (hf : ∀ i ≤ n, ∀ t ∈ Set.Icc p (p + (n + 1) * 10 ^ (-(cfg.prec : Int))), HasDerivAt (f i) (f (i + 1) t) t)
    (hL : ∀ t ∈ Set.Icc p (p + (n + 1) * 10 ^ (-(cfg.prec : Int))), |f (n + 1) t - f (n + 1) p| ≤ L * |t - p|) :
    ∃ y, Yields cfg ctx (.deriv (nthD x n e) x a) y ∧ |y - f (n + 1) p| ≤ L * (n + 1) * 10 ^ (-(cfg.prec : Int)) := by
  have hh : (0 : ℝ) < 10 ^ (-(cfg.prec : Int)) := zpow_pos (by norm_num) _
  refine ⟨_, C60_number cfg hprec φ ρ (.deriv (nthD x n e) x a) _ ⟨nthD_wf hwf.1 hwf n, hwf'.2.1, hwf'.2.2⟩ (denotes_deriv1 ha fun u _ => denotes_nthD he n u) ctx hm, ?_⟩
  rw [← Function.iterate_succ_apply' (quotF _)]
  obtain ⟨ξ, hξ, heq⟩ := quot_iterate hh (n + 1) f p (by push_cast; exact fun i hi => hf i (by omega))
  push_cast at hξ
  rw [heq]
  refine (hL ξ hξ).trans ?_
  rw [abs_of_nonneg (by linarith [hξ.1]), mul_assoc]
  have hend : p + (n + 1) * 10 ^ (-(cfg.prec : Int)) ∈ Set.Icc p (p + (n + 1) * 10 ^ (-(cfg.prec : Int))) :=
    ⟨by have : (0:ℝ) ≤ (n + 1) * 10 ^ (-(cfg.prec : Int)) := by positivity
        linarith, le_rfl⟩
  have hL0 : 0 ≤ L := by
    have h1 := (abs_nonneg _).trans (hL _ hend)
    rw [add_sub_cancel_left, abs_of_pos (by positivity)] at h1
    exact nonneg_of_mul_nonneg_left h1 (by positivity)
  exact mul_le_mul_of_nonneg_left (by linarith [hξ.2]) hL0

/-- The difference quotient changes no faster than the derivative does. -/
theorem quot_lipschitz {h : ℝ} (hh : 0 < h) {f f' : ℝ → ℝ} {a b L : ℝ} (hf : ∀ t ∈ Set.Icc a (b + h), HasDerivAt f (f' t) t)
    (hL : ∀ s ∈ Set.Icc a (b + h), ∀ t ∈ Set.Icc a (b + h), |f' s - f' t| ≤ L * |s - t|) :
    ∀ s ∈ Set.Icc a b, ∀ t ∈ Set.Icc a b, |quotF h f s - quotF h f t| ≤ L * |s - t| := by
  intro s hs t ht
  have h1 : ∀ u ∈ Set.Icc a b, u ∈ Set.Icc a (b + h) := fun u hu => ⟨hu.1, by linarith [hu.2]⟩
  have h2 : ∀ u ∈ Set.Icc a b, u + h ∈ Set.Icc a (b + h) := fun u hu => ⟨by linarith [hu.1], by linarith [hu.2]⟩
  have := (convex_Icc a b).norm_image_sub_le_of_norm_hasDerivWithin_le (f := quotF h f) (f' := quotF h f') (C := L)
    (fun u hu => (quot_deriv (hf u (h1 u hu)) (hf _ (h2 u hu))).hasDerivWithinAt) (fun u hu => ?_) ht hs
  · simpa [Real.norm_eq_abs] using this
  · rw [Real.norm_eq_abs, quotF, abs_div, abs_of_pos hh, div_le_iff₀ hh]
    have := hL _ (h2 u hu) u (h1 u hu)
    rwa [add_sub_cancel_left, abs_of_pos hh] at this

/-- The integral of the difference quotient. -/
theorem quot_integral {h : ℝ} (hh : 0 < h) {f f' : ℝ → ℝ} {a b L : ℝ} (hab : a < b) (hf : ∀ t ∈ Set.Icc a (b + h), HasDerivAt f (f' t) t)
    (hL : ∀ s ∈ Set.Icc a (b + h), ∀ t ∈ Set.Icc a (b + h), |f' s - f' t| ≤ L * |s - t|) :
    |(∫ t in a..b, quotF h f t) - (f b - f a)| ≤ L * h / 2 * (b - a) := by
  have h1 : ∀ u ∈ Set.Icc a b, u ∈ Set.Icc a (b + h) := fun u hu => ⟨hu.1, by linarith [hu.2]⟩
  have h2 : ∀ u ∈ Set.Icc a b, u + h ∈ Set.Icc a (b + h) := fun u hu => ⟨by linarith [hu.1], by linarith [hu.2]⟩
  have hcont' : ContinuousOn f' (Set.Icc a b) := by
    have : LipschitzOnWith L.toNNReal f' (Set.Icc a b) := by
      refine LipschitzOnWith.of_dist_le_mul fun s hs t ht => ?_
      rw [Real.dist_eq, Real.dist_eq]
      refine (hL s (h1 s hs) t (h1 t ht)).trans (mul_le_mul_of_nonneg_right (Real.le_coe_toNNReal L) (abs_nonneg _))
    exact this.continuousOn
  have hcontq : ContinuousOn (quotF h f) (Set.Icc a b) := fun u hu =>
    (quot_deriv (hf u (h1 u hu)) (hf _ (h2 u hu))).continuousAt.continuousWithinAt
  have hi' : IntervalIntegrable f' MeasureTheory.volume a b := by
    apply ContinuousOn.intervalIntegrable; rwa [Set.uIcc_of_le hab.le]
  have hiq : IntervalIntegrable (quotF h f) MeasureTheory.volume a b := by
    apply ContinuousOn.intervalIntegrable; rwa [Set.uIcc_of_le hab.le]
  have hftc : ∫ t in a..b, f' t = f b - f a := by
    apply intervalIntegral.integral_eq_sub_of_hasDerivAt
    · intro t ht
      rw [Set.uIcc_of_le hab.le] at ht
      exact hf t (h1 t ht)
    · exact hi'
  rw [← hftc, ← intervalIntegral.integral_sub hiq hi']
  have := intervalIntegral.norm_integral_le_of_norm_le_const (a := a) (b := b) (f := fun t => quotF h f t - f' t) (C := L * h / 2) (by
    intro t ht
    rw [Set.uIoc_of_le hab.le] at ht
    have ht' : t ∈ Set.Icc a b := ⟨ht.1.le, ht.2⟩
    have hsub : ∀ u ∈ Set.Icc t (t + h), u ∈ Set.Icc a (b + h) := fun u hu => ⟨by linarith [hu.1, ht'.1], by linarith [hu.2, ht'.2]⟩
    exact diffQuotient_error hh (fun u hu => hf u (hsub u hu)) fun u hu v hv => hL u (hsub u hu) v (hsub v hv))
  rwa [abs_of_pos (by linarith), Real.norm_eq_abs] at this

/-- **C92.** The integral of a derivative: `I(D(e,x,x),x,a,b)` with `a < b` is `f(b) - f(a)` up to `L*(b-a)^2/10^(PREC-3)` for the sum and
`L/2*10^-PREC*(b-a)` for the difference quotients, if the derivative changes by at most `L` per unit. -/
theorem C92_integral_of_derivative (hprec : 3 ≤ cfg.prec) (e lo hi : Ex) (x : Str) (hwf : (Ex.deriv e x (.var x)).WF)
    (hwf' : (Ex.integ e x lo hi).WF) (f f' : ℝ → ℝ) (L a b : ℝ)
    (he : ∀ u, Denotes cfg φ [] (ρ.set x [.scalar u]) e [.scalar (f u)]) (hlo : Denotes cfg φ [] ρ lo [.scalar a])
    (hhi : Denotes cfg φ [] ρ hi [.scalar b]) (hm : Models cfg ctx ρ φ) (hab : a < b)
    (hf : ∀ t ∈ Set.Icc (a - (b - a) / 10 ^ (cfg.prec - 3) / 2) (b + 10 ^ (-(cfg.prec : Int))), HasDerivAt f (f' t) t)
    (hL : ∀ s ∈ Set.Icc (a - (b - a) / 10 ^ (cfg.prec - 3) / 2) (b + 10 ^ (-(cfg.prec : Int))),
      ∀ t ∈ Set.Icc (a - (b - a) / 10 ^ (cfg.prec - 3) / 2) (b + 10 ^ (-(cfg.prec : Int))), |f' s - f' t| ≤ L * |s - t|) :
    ∃ y, Yields cfg ctx (.integ (.deriv e x (.var x)) x lo hi) y ∧
      |y - (f b - f a)| ≤ L * (b - a) ^ 2 / 10 ^ (cfg.prec - 3) + L / 2 * 10 ^ (-(cfg.prec : Int)) * (b - a) := by
  have hh : (0 : ℝ) < 10 ^ (-(cfg.prec : Int)) := zpow_pos (by norm_num) _
  have hd : 0 < (b - a) / 10 ^ (cfg.prec - 3) / 2 := by
    have : 0 < b - a := by linarith
    positivity
  have hD := denotes_integ1 (x := x) (e := .deriv e x (.var x)) (f := quotF (10 ^ (-(cfg.prec : Int))) f) hlo hhi (fun u _ =>
    denotes_deriv1 (.var _ _ (by simp [Env.set])) fun w _ => by rw [set_same]; exact he w)
  rw [min_eq_left hab.le, max_eq_right hab.le] at hD
  refine ⟨_, C60_number cfg hprec φ ρ (.integ (.deriv e x (.var x)) x lo hi) _ ⟨hwf, hwf'.2⟩ hD ctx hm, ?_⟩
  have h1 := riemann_error (f := quotF (10 ^ (-(cfg.prec : Int))) f) (L := L) (N := 10 ^ (cfg.prec - 3)) (by positivity) hab
    (by push_cast; exact quot_lipschitz hh hf hL)
  push_cast at h1
  have h2 := quot_integral hh hab (fun t ht => hf t ⟨by linarith [ht.1], ht.2⟩)
    fun s hs t ht => hL s ⟨by linarith [hs.1], hs.2⟩ t ⟨by linarith [ht.1], ht.2⟩
  have h3 := abs_add_le (riemann (10 ^ (cfg.prec - 3)) (quotF (10 ^ (-(cfg.prec : Int))) f) a b - ∫ t in a..b, quotF (10 ^ (-(cfg.prec : Int))) f t)
    ((∫ t in a..b, quotF (10 ^ (-(cfg.prec : Int))) f t) - (f b - f a))
  rw [sub_add_sub_cancel] at h3
  rw [mul_div_right_comm] at h2
  linarith

/-- **C92.** The derivative of an integral with respect to its upper bound: `D(I(e,t,a,x),x,c)` with `a < c` is `f(c)` up to
`L*(c+h-a)/10^(PREC-3) + M*h` with `h = 10^-PREC`, if `e` as a function `f` of `t` changes by at most `M` per unit and `f(t)+(t-a)*f'(t)` by
at most `L`. -/
theorem C92_derivative_of_integral (hprec : 3 ≤ cfg.prec) (e lo c : Ex) (t x : Str) (hwf : (Ex.deriv (.integ e t lo (.var x)) x c).WF)
    (f f' : ℝ → ℝ) (L M a q : ℝ) (he : ∀ u w, Denotes cfg φ [] ((ρ.set x [.scalar u]).set t [.scalar w]) e [.scalar (f w)])
    (hlo : ∀ u, Denotes cfg φ [] (ρ.set x [.scalar u]) lo [.scalar a]) (hc : Denotes cfg φ [] ρ c [.scalar q]) (hm : Models cfg ctx ρ φ) (haq : a < q)
    (hf : ∀ t ∈ Set.Icc (a - (q + 10 ^ (-(cfg.prec : Int)) - a)) (q + 10 ^ (-(cfg.prec : Int))), HasDerivAt f (f' t) t)
    (hM : ∀ t ∈ Set.Icc q (q + 10 ^ (-(cfg.prec : Int))), |f t - f q| ≤ M * |t - q|)
    (hL : ∀ s ∈ Set.Icc (a - (q + 10 ^ (-(cfg.prec : Int)) - a)) (q + 10 ^ (-(cfg.prec : Int))),
      ∀ t ∈ Set.Icc (a - (q + 10 ^ (-(cfg.prec : Int)) - a)) (q + 10 ^ (-(cfg.prec : Int))),
        |(f s + (s - a) * f' s) - (f t + (t - a) * f' t)| ≤ L * |s - t|) :
    ∃ y, Yields cfg ctx (.deriv (.integ e t lo (.var x)) x c) y ∧
      |y - f q| ≤ L * (q + 10 ^ (-(cfg.prec : Int)) - a) / 10 ^ (cfg.prec - 3) + M * 10 ^ (-(cfg.prec : Int)) := by
  have hh : (0 : ℝ) < 10 ^ (-(cfg.prec : Int)) := zpow_pos (by norm_num) _
  obtain ⟨N, hNd⟩ : ∃ N : Nat, N = 10 ^ (cfg.prec - 3) := ⟨_, rfl⟩
  have hN : 0 < N := by rw [hNd]; positivity
  have hNr : (10 : ℝ) ^ (cfg.prec - 3) = N := by rw [hNd]; push_cast; rfl
  have hD : Denotes cfg φ [] ρ (.deriv (.integ e t lo (.var x)) x c)
      [.scalar (quotF (10 ^ (-(cfg.prec : Int))) (fun u => riemann N f a u) q)] := by
    refine denotes_deriv1 hc fun u hu => ?_
    have hau : a ≤ u := by rcases hu with rfl | rfl <;> linarith
    have h := denotes_integ1 (x := t) (e := e) (f := f) (b := u) (hlo u) (.var x _ (by simp [Env.set])) (fun w _ => he u w)
    rw [min_eq_left hau, max_eq_right hau, ← hNd] at h
    exact h
  refine ⟨_, C60_number cfg hprec φ ρ _ _ hwf hD ctx hm, ?_⟩
  rw [hNr]
  generalize (10 : ℝ) ^ (-(cfg.prec : Int)) = h at *
  clear hD hNr hNd he hlo hc hm
  have hN1 : (1 : ℝ) ≤ N := by exact_mod_cast hN
  have hin : ∀ u, a < u → u ≤ q + h → ∀ w ∈ Set.Icc (a - (u - a) / N / 2) u, w ∈ Set.Icc (a - (q + h - a)) (q + h) := by
    intro u hau hu w hw
    have h1 : (u - a) / N / 2 ≤ u - a := by
      have : (u - a) / N ≤ u - a := div_le_self (by linarith) hN1
      have : 0 ≤ (u - a) / N := div_nonneg (by linarith) (by linarith)
      linarith
    exact ⟨by linarith [hw.1], by linarith [hw.2]⟩
  have hder : ∀ u, a < u → u ≤ q + h →
      HasDerivAt (fun u => riemann N f a u) (riemann N (fun t => f t + (t - a) * f' t) a u / (u - a)) u := fun u hau hu =>
    riemann_deriv hN hau fun w hw => hf w (hin u hau hu w hw)
  obtain ⟨ξ, hξ, hs⟩ := exists_hasDerivAt_eq_slope (fun u => riemann N f a u) (fun u => riemann N (fun t => f t + (t - a) * f' t) a u / (u - a))
    (by linarith : q < q + h)
    (fun u hu => (hder u (by linarith [hu.1]) hu.2).continuousAt.continuousWithinAt)
    (fun u hu => hder u (by linarith [hu.1]) hu.2.le)
  rw [add_sub_cancel_left] at hs
  have hy : quotF h (fun u => riemann N f a u) q = riemann N (fun t => f t + (t - a) * f' t) a ξ / (ξ - a) := hs.symm
  have haξ : a < ξ := by linarith [hξ.1]
  have hL' : ∀ s ∈ Set.Icc (a - (ξ - a) / N / 2) ξ, ∀ t ∈ Set.Icc (a - (ξ - a) / N / 2) ξ,
      |(f s + (s - a) * f' s) - (f t + (t - a) * f' t)| ≤ L * |s - t| := fun s hs t ht =>
    hL s (hin ξ haξ hξ.2.le s hs) t (hin ξ haξ hξ.2.le t ht)
  have herr := riemann_error (f := fun t => f t + (t - a) * f' t) (L := L) hN haξ hL'
  have hsub : ∀ w ∈ Set.Icc a ξ, w ∈ Set.Icc (a - (ξ - a) / N / 2) ξ := by
    intro w hw
    have : 0 ≤ (ξ - a) / N / 2 := div_nonneg (div_nonneg (by linarith) (by linarith)) (by norm_num)
    exact ⟨by linarith [hw.1], hw.2⟩
  have hint : ∫ t in a..ξ, (f t + (t - a) * f' t) = (ξ - a) * f ξ := by
    have hcont : ContinuousOn (fun t => f t + (t - a) * f' t) (Set.Icc a ξ) := by
      have : LipschitzOnWith L.toNNReal (fun t => f t + (t - a) * f' t) (Set.Icc a ξ) := by
        refine LipschitzOnWith.of_dist_le_mul fun s hs t ht => ?_
        rw [Real.dist_eq, Real.dist_eq]
        exact (hL' s (hsub s hs) t (hsub t ht)).trans (mul_le_mul_of_nonneg_right (Real.le_coe_toNNReal L) (abs_nonneg _))
      exact this.continuousOn
    have := intervalIntegral.integral_eq_sub_of_hasDerivAt (a := a) (b := ξ) (f := fun t => (t - a) * f t)
      (f' := fun t => f t + (t - a) * f' t) (by
        intro w hw
        rw [Set.uIcc_of_le haξ.le] at hw
        have h1 := ((hasDerivAt_id w).sub_const a).mul (hf w (hin ξ haξ hξ.2.le w (hsub w hw)))
        exact h1.congr_deriv (by simp)) (by
        apply ContinuousOn.intervalIntegrable; rwa [Set.uIcc_of_le haξ.le])
    rw [this]
    ring
  rw [hint] at herr
  have hL0 : 0 ≤ L := by
    have h1 := (abs_nonneg _).trans (hL' a (hsub a ⟨le_rfl, haξ.le⟩) ξ (hsub ξ ⟨haξ.le, le_rfl⟩))
    exact nonneg_of_mul_nonneg_left h1 (abs_pos.2 (by linarith))
  have hM0 : 0 ≤ M := by
    have h1 := (abs_nonneg _).trans (hM (q + h) ⟨by linarith, le_rfl⟩)
    exact nonneg_of_mul_nonneg_left h1 (abs_pos.2 (by linarith))
  have h1 : |riemann N (fun t => f t + (t - a) * f' t) a ξ / (ξ - a) - f ξ| ≤ L * (ξ - a) / N := by
    have hpos : 0 < ξ - a := by linarith
    have : riemann N (fun t => f t + (t - a) * f' t) a ξ / (ξ - a) - f ξ =
        (riemann N (fun t => f t + (t - a) * f' t) a ξ - (ξ - a) * f ξ) / (ξ - a) := by field_simp
    rw [this, abs_div, abs_of_pos hpos, div_le_iff₀ hpos]
    refine herr.trans (le_of_eq ?_)
    ring
  have h2 : L * (ξ - a) / N ≤ L * (q + h - a) / N := by
    apply div_le_div_of_nonneg_right _ (by linarith)
    exact mul_le_mul_of_nonneg_left (by linarith [hξ.2]) hL0
  have h3 := hM ξ ⟨hξ.1.le, hξ.2.le⟩
  have h4 : M * |ξ - q| ≤ M * h := by
    refine mul_le_mul_of_nonneg_left ?_ hM0
    rw [abs_of_pos (by linarith [hξ.1])]
    linarith [hξ.2]
  rw [hy]
  have h5 := abs_add_le (riemann N (fun t => f t + (t - a) * f' t) a ξ / (ξ - a) - f ξ) (f ξ - f q)
  rw [sub_add_sub_cancel] at h5
  linarith

/-! ## Examples -/

theorem denotes_product {ρ : Env} {l r : Ex} {a b : ℝ} (hl : Denotes cfg φ [] ρ l [.scalar a]) (hr : Denotes cfg φ [] ρ r [.scalar b]) :
    Denotes cfg φ [] ρ (.bin .mult l r) [.scalar (a * b)] := denotes_bin hl hr (.mult (.scalar a b))

/-- `D(D(x*x*x,x,x),x,2)` is within `12*10^-PREC` of `12`. -/
example (hprec : 3 ≤ cfg.prec) : ∃ y, Yields cfg (Context.default : Context F)
    (.deriv (.deriv (.bin .mult (.bin .mult (.var ['x']) (.var ['x'])) (.var ['x'])) ['x'] (.var ['x'])) ['x'] (.num ['2'] none)) y ∧
      |y - 12| ≤ 12 * 10 ^ (-(cfg.prec : Int)) := by
  have wx : (Ex.var ['x']).WF := wf_name (n := "x") (by decide)
  have we : (Ex.bin .mult (.bin .mult (.var ['x']) (.var ['x'])) (.var ['x'])).WF :=
    ⟨⟨wx, wx, by decide, by decide, nofun⟩, wx, by decide, by decide, nofun⟩
  have := C92_higher (F := F) (φ := fun _ => none) (ctx := Context.default) hprec
    (.bin .mult (.bin .mult (.var ['x']) (.var ['x'])) (.var ['x'])) (.num ['2'] none) ['x'] 1
    ⟨we, nameShape_letters (by decide) (by decide), wx⟩ ⟨we, nameShape_letters (by decide) (by decide), wf_num (s := "2") (by decide)⟩
    (fun i t => match i with | 0 => t * t * t | 1 => 3 * t ^ 2 | _ => 6 * t) 6 2
    (fun u => denotes_product (denotes_product (.var _ _ (by simp [Env.set])) (.var _ _ (by simp [Env.set]))) (.var _ _ (by simp [Env.set])))
    (denotes_digit '2' 2 2 rfl (by norm_num)) (C60_constants (F := F) cfg).1 (by
      intro i hi t _
      match i, hi with
      | 0, _ =>
        refine (((hasDerivAt_id t).mul (hasDerivAt_id t)).mul (hasDerivAt_id t)).congr_deriv ?_
        simp; ring
      | 1, _ =>
        refine ((hasDerivAt_pow 2 t).const_mul 3).congr_deriv ?_
        norm_num; ring) (by
      intro t _
      show |6 * t - 6 * 2| ≤ 6 * |t - 2|
      rw [← mul_sub, abs_mul, abs_of_pos (by norm_num : (0 : ℝ) < 6)])
  obtain ⟨y, h1, h2⟩ := this
  refine ⟨y, h1, ?_⟩
  norm_num at h2 ⊢
  linarith

theorem denotes_xy (ρ : Env) (u v : ℝ) : Denotes cfg φ [] ((ρ.set ['x'] [.scalar u]).set ['y'] [.scalar v])
    (.bin .mult (.bin .mult (.var ['x']) (.var ['x'])) (.var ['y'])) [.scalar (u * u * v)] :=
  denotes_product (denotes_product (.var _ _ (by simp [Env.set])) (.var _ _ (by simp [Env.set]))) (.var _ _ (by simp [Env.set]))

theorem wf_xy : (Ex.bin .mult (.bin .mult (.var ['x']) (.var ['x'])) (.var ['y'])).WF := by
  have wx : (Ex.var ['x']).WF := wf_name (n := "x") (by decide)
  have wy : (Ex.var ['y']).WF := wf_name (n := "y") (by decide)
  exact ⟨⟨wx, wx, by decide, by decide, nofun⟩, wy, by decide, by decide, nofun⟩

/-- `D(D(x*x*y,x,2),y,3)` and `D(D(x*x*y,y,3),x,2)`. -/
example (hprec : 3 ≤ cfg.prec) : ∃ z,
    Yields cfg (Context.default : Context F)
      (.deriv (.deriv (.bin .mult (.bin .mult (.var ['x']) (.var ['x'])) (.var ['y'])) ['x'] (.num ['2'] none)) ['y'] (.num ['3'] none)) z ∧
    Yields cfg (Context.default : Context F)
      (.deriv (.deriv (.bin .mult (.bin .mult (.var ['x']) (.var ['x'])) (.var ['y'])) ['y'] (.num ['3'] none)) ['x'] (.num ['2'] none)) z := by
  have nx : NameShape ['x'] := nameShape_letters (by decide) (by decide)
  have ny : NameShape ['y'] := nameShape_letters (by decide) (by decide)
  have w2 : (Ex.num ['2'] none).WF := wf_num (s := "2") (by decide)
  have w3 : (Ex.num ['3'] none).WF := wf_num (s := "3") (by decide)
  exact C92_mixed hprec _ _ _ _ _ (by decide) ⟨⟨wf_xy, nx, w2⟩, ny, w3⟩ ⟨⟨wf_xy, ny, w3⟩, nx, w2⟩ (fun u v => u * u * v) 2 3
    (denotes_xy _) ⟨denotes_digit '2' 2 2 rfl (by norm_num), fun _ => denotes_digit '2' 2 2 rfl (by norm_num)⟩
    ⟨denotes_digit '3' 3 3 rfl (by norm_num), fun _ => denotes_digit '3' 3 3 rfl (by norm_num)⟩ (C60_constants (F := F) cfg).1

/-- `I(I(x*x*y,x,0,1),y,2,3)` and `I(I(x*x*y,y,2,3),x,0,1)`. -/
example (hprec : 3 ≤ cfg.prec) : ∃ z,
    Yields cfg (Context.default : Context F) (.integ (.integ (.bin .mult (.bin .mult (.var ['x']) (.var ['x'])) (.var ['y'])) ['x']
      (.num ['0'] none) (.num ['1'] none)) ['y'] (.num ['2'] none) (.num ['3'] none)) z ∧
    Yields cfg (Context.default : Context F) (.integ (.integ (.bin .mult (.bin .mult (.var ['x']) (.var ['x'])) (.var ['y'])) ['y']
      (.num ['2'] none) (.num ['3'] none)) ['x'] (.num ['0'] none) (.num ['1'] none)) z := by
  have nx : NameShape ['x'] := nameShape_letters (by decide) (by decide)
  have ny : NameShape ['y'] := nameShape_letters (by decide) (by decide)
  have w0 : (Ex.num ['0'] none).WF := wf_num (s := "0") (by decide)
  have w1 : (Ex.num ['1'] none).WF := wf_num (s := "1") (by decide)
  have w2 : (Ex.num ['2'] none).WF := wf_num (s := "2") (by decide)
  have w3 : (Ex.num ['3'] none).WF := wf_num (s := "3") (by decide)
  exact C92_fubini hprec _ _ _ _ _ _ _ (by decide) ⟨⟨wf_xy, nx, w0, w1⟩, ny, w2, w3⟩ ⟨⟨wf_xy, ny, w2, w3⟩, nx, w0, w1⟩ (fun u v => u * u * v) 0 1 2 3
    (denotes_xy _) ⟨denotes_digit '0' 0 0 rfl (by norm_num), fun _ => denotes_digit '0' 0 0 rfl (by norm_num)⟩
    ⟨denotes_digit '1' 1 1 rfl (by norm_num), fun _ => denotes_digit '1' 1 1 rfl (by norm_num)⟩
    ⟨denotes_digit '2' 2 2 rfl (by norm_num), fun _ => denotes_digit '2' 2 2 rfl (by norm_num)⟩
    ⟨denotes_digit '3' 3 3 rfl (by norm_num), fun _ => denotes_digit '3' 3 3 rfl (by norm_num)⟩ (C60_constants (F := F) cfg).1

/-- `D(I(x*x*y,x,0,1),y,3)` and `I(D(x*x*y,y,3),x,0,1)`. -/
example (hprec : 3 ≤ cfg.prec) : ∃ z,
    Yields cfg (Context.default : Context F) (.deriv (.integ (.bin .mult (.bin .mult (.var ['x']) (.var ['x'])) (.var ['y'])) ['x']
      (.num ['0'] none) (.num ['1'] none)) ['y'] (.num ['3'] none)) z ∧
    Yields cfg (Context.default : Context F) (.integ (.deriv (.bin .mult (.bin .mult (.var ['x']) (.var ['x'])) (.var ['y'])) ['y']
      (.num ['3'] none)) ['x'] (.num ['0'] none) (.num ['1'] none)) z := by
  have nx : NameShape ['x'] := nameShape_letters (by decide) (by decide)
  have ny : NameShape ['y'] := nameShape_letters (by decide) (by decide)
  have w0 : (Ex.num ['0'] none).WF := wf_num (s := "0") (by decide)
  have w1 : (Ex.num ['1'] none).WF := wf_num (s := "1") (by decide)
  have w3 : (Ex.num ['3'] none).WF := wf_num (s := "3") (by decide)
  exact C92_leibniz hprec _ _ _ _ _ _ (by decide) ⟨⟨wf_xy, nx, w0, w1⟩, ny, w3⟩ ⟨⟨wf_xy, ny, w3⟩, nx, w0, w1⟩ (fun u v => u * u * v) 0 1 3
    (denotes_xy _) ⟨denotes_digit '0' 0 0 rfl (by norm_num), fun _ => denotes_digit '0' 0 0 rfl (by norm_num)⟩
    ⟨denotes_digit '1' 1 1 rfl (by norm_num), fun _ => denotes_digit '1' 1 1 rfl (by norm_num)⟩
    ⟨denotes_digit '3' 3 3 rfl (by norm_num), fun _ => denotes_digit '3' 3 3 rfl (by norm_num)⟩ (C60_constants (F := F) cfg).1

/-- `I(D(x*x,x,x),x,1,3)` is within `8/10^(PREC-3) + 2*10^-PREC` of `8`. -/
example (hprec : 3 ≤ cfg.prec) : ∃ y, Yields cfg (Context.default : Context F)
    (.integ (.deriv (.bin .mult (.var ['x']) (.var ['x'])) ['x'] (.var ['x'])) ['x'] (.num ['1'] none) (.num ['3'] none)) y ∧
      |y - 8| ≤ 8 / 10 ^ (cfg.prec - 3) + 2 * 10 ^ (-(cfg.prec : Int)) := by
  have wx : (Ex.var ['x']).WF := wf_name (n := "x") (by decide)
  have nx : NameShape ['x'] := nameShape_letters (by decide) (by decide)
  have we : (Ex.bin .mult (.var ['x']) (.var ['x'])).WF := ⟨wx, wx, by decide, by decide, nofun⟩
  obtain ⟨y, h1, h2⟩ := C92_integral_of_derivative (F := F) (φ := fun _ => none) (ctx := Context.default) hprec
    (.bin .mult (.var ['x']) (.var ['x'])) (.num ['1'] none) (.num ['3'] none) ['x']
    ⟨we, nx, wx⟩ ⟨we, nx, wf_num (s := "1") (by decide), wf_num (s := "3") (by decide)⟩ (fun t => t * t) (fun t => 2 * t) 2 1 3
    (fun u => denotes_product (.var _ _ (by simp [Env.set])) (.var _ _ (by simp [Env.set])))
    (denotes_digit '1' 1 1 rfl (by norm_num)) (denotes_digit '3' 3 3 rfl (by norm_num)) (C60_constants (F := F) cfg).1 (by norm_num)
    (fun t _ => ((hasDerivAt_id t).mul (hasDerivAt_id t)).congr_deriv (by simp; ring))
    (fun s _ t _ => by rw [← mul_sub, abs_mul, abs_of_pos (by norm_num : (0 : ℝ) < 2)])
  refine ⟨y, h1, ?_⟩
  norm_num at h2 ⊢
  linarith

/-- `D(I(t*t,t,0,x),x,2)` is close to `4`. -/
example (hprec : 3 ≤ cfg.prec) : ∃ y, Yields cfg (Context.default : Context F)
    (.deriv (.integ (.bin .mult (.var ['t']) (.var ['t'])) ['t'] (.num ['0'] none) (.var ['x'])) ['x'] (.num ['2'] none)) y ∧
      |y - 4| ≤ 18 * (2 + 10 ^ (-(cfg.prec : Int))) / 10 ^ (cfg.prec - 3) + 5 * 10 ^ (-(cfg.prec : Int)) := by
  have wx : (Ex.var ['x']).WF := wf_name (n := "x") (by decide)
  have wt : (Ex.var ['t']).WF := wf_name (n := "t") (by decide)
  have nx : NameShape ['x'] := nameShape_letters (by decide) (by decide)
  have nt : NameShape ['t'] := nameShape_letters (by decide) (by decide)
  have we : (Ex.bin .mult (.var ['t']) (.var ['t'])).WF := ⟨wt, wt, by decide, by decide, nofun⟩
  have hh : (0 : ℝ) < 10 ^ (-(cfg.prec : Int)) := zpow_pos (by norm_num) _
  have hh1 : (10 : ℝ) ^ (-(cfg.prec : Int)) ≤ 1 := by
    have : (10 : ℝ) ^ (-(cfg.prec : Int)) ≤ 10 ^ (0 : Int) := zpow_le_zpow_right₀ (by norm_num) (by omega)
    simpa using this
  obtain ⟨y, h1, h2⟩ := C92_derivative_of_integral (F := F) (φ := fun _ => none) (ctx := Context.default) hprec
    (.bin .mult (.var ['t']) (.var ['t'])) (.num ['0'] none) (.num ['2'] none) ['t'] ['x']
    ⟨⟨we, nt, wf_num (s := "0") (by decide), wx⟩, nx, wf_num (s := "2") (by decide)⟩ (fun t => t * t) (fun t => 2 * t) 18 5 0 2
    (fun u w => denotes_product (.var _ _ (by simp [Env.set])) (.var _ _ (by simp [Env.set])))
    (fun u => denotes_digit '0' 0 0 rfl (by norm_num)) (denotes_digit '2' 2 2 rfl (by norm_num)) (C60_constants (F := F) cfg).1 (by norm_num)
    (fun t _ => ((hasDerivAt_id t).mul (hasDerivAt_id t)).congr_deriv (by simp; ring))
    (by
      intro t ht
      show |t * t - 2 * 2| ≤ 5 * |t - 2|
      rw [show t * t - 2 * 2 = (t + 2) * (t - 2) by ring, abs_mul]
      exact mul_le_mul_of_nonneg_right (by rw [abs_of_pos (by linarith [ht.1])]; linarith [ht.2]) (abs_nonneg _))
    (by
      intro s hs t ht
      show |s * s + (s - 0) * (2 * s) - (t * t + (t - 0) * (2 * t))| ≤ 18 * |s - t|
      rw [show s * s + (s - 0) * (2 * s) - (t * t + (t - 0) * (2 * t)) = 3 * (s + t) * (s - t) by ring, abs_mul]
      refine mul_le_mul_of_nonneg_right ?_ (abs_nonneg _)
      rw [abs_le]
      constructor <;> linarith [hs.1, hs.2, ht.1, ht.2])
  refine ⟨y, h1, ?_⟩
  norm_num at h2 ⊢
  exact h2

end
end MUL
