import Verif.Proofs.Accuracy
import Verif.Props.Denote
/-!
# C66: how accurate derivatives and integrals are (in exact arithmetic)
-/

namespace MUL
open Out Spec

section
variable {F : Type} [FNum F] [ExactReal F]

/-- **C66.** If the expression is a function `f` whose derivative `f'` changes by at most `L` per unit between the point `a` and
`a + 10^-PREC`, then `D(e,x,a)` is within `L/2 * 10^-PREC` of the derivative `f' a`. -/
theorem C66_derivative (cfg : Cfg) (ctx : Context F) (x : Str) (e at_ : AST F) (f f' : ℝ → ℝ) (L : ℝ) {p : Value F} {a : ℝ}
    (he : ComputesOn (fun t => t = a ∨ t = a + (10 : ℝ) ^ (-(cfg.prec : Int))) IsScalar cfg ctx x e (fun (_ : Fin 1) => f))
    (hat : Finishes (fun n => eval cfg n at_ ctx) (.ok [p])) (hp : IsScalar p a)
    (hf : ∀ t ∈ Set.Icc a (a + 10 ^ (-(cfg.prec : Int))), HasDerivAt f (f' t) t)
    (hL : ∀ s ∈ Set.Icc a (a + 10 ^ (-(cfg.prec : Int))), ∀ t ∈ Set.Icc a (a + 10 ^ (-(cfg.prec : Int))), |f' s - f' t| ≤ L * |s - t|) :
    ∃ v y, Finishes (fun n => eval cfg n (.derivative e x at_) ctx) (.ok [v]) ∧ IsScalar v y ∧
      |y - f' a| ≤ L / 2 * 10 ^ (-(cfg.prec : Int)) := by
  obtain ⟨vs, h1, h2⟩ := C44_exact cfg ctx x e at_ _ he hat hp
  obtain ⟨v, rfl, hv⟩ := listIs_one h2
  refine ⟨v, _, h1, hv, ?_⟩
  have := diffQuotient_error (zpow_pos (by norm_num) _) hf hL
  rwa [mul_div_right_comm] at this

/-- **C66.** If the expression is a function `f` that changes by at most `L` per unit between half a step left of the lower bound and
the upper bound, then `I(e,x,a,b)` is within `L * (b-a)^2 / 10^(PREC-3)` of the integral. This bound is attained (`C41_identity`). -/
theorem C66_integral (cfg : Cfg) (hprec : 3 ≤ cfg.prec) (ctx : Context F) (hd : NoDupVars ctx) (x : Str) (e lo hi : AST F)
    (f : ℝ → ℝ) (L : ℝ) {l u : Value F} {a b : ℝ}
    (he : ComputesOn (SamplePoint (10 ^ (cfg.prec - 3)) a b) IsScalar cfg ctx x e (fun (_ : Fin 1) => f))
    (hlo : Finishes (fun n => eval cfg n lo ctx) (.ok [l])) (hl : IsScalar l a)
    (hhi : Finishes (fun n => eval cfg n hi ctx) (.ok [u])) (hu : IsScalar u b) (hab : a < b)
    (hL : ∀ s ∈ Set.Icc (a - (b - a) / 10 ^ (cfg.prec - 3) / 2) b, ∀ t ∈ Set.Icc (a - (b - a) / 10 ^ (cfg.prec - 3) / 2) b,
      |f s - f t| ≤ L * |s - t|) :
    ∃ v y, Finishes (fun n => eval cfg n (.integral e x lo hi) ctx) (.ok [v]) ∧ IsScalar v y ∧
      |y - ∫ t in a..b, f t| ≤ L * (b - a) ^ 2 / 10 ^ (cfg.prec - 3) := by
  have hmin : min a b = a := min_eq_left hab.le
  have hmax : max a b = b := max_eq_right hab.le
  obtain ⟨vs, h1, h2⟩ := C41_integral cfg hprec ctx hd x e lo hi (fun (_ : Fin 1) => f) (by rwa [hmin, hmax]) hlo hl hhi hu hab.ne
  obtain ⟨v, rfl, hv⟩ := listIs_one h2
  rw [hmin, hmax] at hv
  refine ⟨v, _, h1, hv, ?_⟩
  have := riemann_error (f := f) (L := L) (N := 10 ^ (cfg.prec - 3)) (by positivity) hab (by push_cast; exact hL)
  push_cast at this
  exact this

variable [UTable] {cfg : Cfg} {ctx : Context F} {φ : Defs} {ρ : Env}

/-- **C66**, from the text of a formula: derivatives. -/
theorem C66_derivative_text (hprec : 3 ≤ cfg.prec) (e a : Ex) (x : Str) (hwf : (Ex.deriv e x a).WF) (f f' : ℝ → ℝ) (L p : ℝ)
    (he : ∀ u, u = p ∨ u = p + 10 ^ (-(cfg.prec : Int)) → Denotes cfg φ [] (ρ.set x [.scalar u]) e [.scalar (f u)]) (ha : Denotes cfg φ [] ρ a [.scalar p])
    (hm : Models cfg ctx ρ φ)
    (hf : ∀ t ∈ Set.Icc p (p + 10 ^ (-(cfg.prec : Int))), HasDerivAt f (f' t) t)
    (hL : ∀ s ∈ Set.Icc p (p + 10 ^ (-(cfg.prec : Int))), ∀ t ∈ Set.Icc p (p + 10 ^ (-(cfg.prec : Int))), |f' s - f' t| ≤ L * |s - t|) :
    ∃ v y, Finishes (fun n => quickEval cfg n (Ex.deriv e x a).text ctx) (.ok [v]) ∧ IsScalar v y ∧
      |y - f' p| ≤ L / 2 * 10 ^ (-(cfg.prec : Int)) := by
  have h := Denotes.deriv (cfg := cfg) (φ := φ) (cur := []) (ρ := ρ) e x a [p] (fun (_ : Fin 1) => f) (by simpa using ha)
    (by
      intro t ht u hu
      obtain rfl : t = p := by simpa using ht
      simpa using he u hu)
  have h' : Denotes cfg φ [] ρ (Ex.deriv e x a)
      [.scalar ((f (p + 10 ^ (-(cfg.prec : Int))) - f p) / 10 ^ (-(cfg.prec : Int)))] := h
  obtain ⟨v, h1, h2⟩ := C60_number cfg hprec φ ρ _ _ hwf h' ctx hm
  refine ⟨_, _, h1, ⟨v, rfl, h2⟩, ?_⟩
  have := diffQuotient_error (zpow_pos (by norm_num) _) hf hL
  rwa [mul_div_right_comm] at this

/-- **C66**, from the text of a formula: integrals. -/
theorem C66_integral_text (hprec : 3 ≤ cfg.prec) (e lo hi : Ex) (x : Str) (hwf : (Ex.integ e x lo hi).WF) (f : ℝ → ℝ) (L a b : ℝ)
    (he : ∀ u, SamplePoint (10 ^ (cfg.prec - 3)) a b u → Denotes cfg φ [] (ρ.set x [.scalar u]) e [.scalar (f u)]) (hlo : Denotes cfg φ [] ρ lo [.scalar a])
    (hhi : Denotes cfg φ [] ρ hi [.scalar b]) (hm : Models cfg ctx ρ φ) (hab : a < b)
    (hL : ∀ s ∈ Set.Icc (a - (b - a) / 10 ^ (cfg.prec - 3) / 2) b, ∀ t ∈ Set.Icc (a - (b - a) / 10 ^ (cfg.prec - 3) / 2) b,
      |f s - f t| ≤ L * |s - t|) :
    ∃ v y, Finishes (fun n => quickEval cfg n (Ex.integ e x lo hi).text ctx) (.ok [v]) ∧ IsScalar v y ∧
      |y - ∫ t in a..b, f t| ≤ L * (b - a) ^ 2 / 10 ^ (cfg.prec - 3) := by
  have h := Denotes.integ (cfg := cfg) (φ := φ) (cur := []) (ρ := ρ) e x lo hi [a] [b] (fun (_ : Fin 1) => f) (by simpa using hlo)
    (by simpa using hhi) (by
      intro a' ha' b' hb' _ u hu
      obtain rfl : a' = a := by simpa using ha'
      obtain rfl : b' = b := by simpa using hb'
      rw [min_eq_left hab.le, max_eq_right hab.le] at hu
      simpa using he u hu)
  obtain ⟨v, h1, h2⟩ := C60_number cfg hprec φ ρ _ (riemann (10 ^ (cfg.prec - 3)) f a b) hwf
    (by simpa [pairs, hab.ne, min_eq_left hab.le, max_eq_right hab.le] using h) ctx hm
  refine ⟨_, _, h1, ⟨v, rfl, h2⟩, ?_⟩
  have := riemann_error (f := f) (L := L) (N := 10 ^ (cfg.prec - 3)) (by positivity) hab (by push_cast; exact hL)
  push_cast at this
  exact this

/-! ## Examples -/

/-- `D(sin(x),x,1)` is within `10^-PREC / 2` of `cos 1`. -/
example (hprec : 3 ≤ cfg.prec) :
    ∃ v y, Finishes (fun n => quickEval cfg n "D(sin(x),x,1)".toList (Context.default : Context F)) (.ok [v]) ∧ IsScalar v y ∧
      |y - Real.cos 1| ≤ 1 / 2 * 10 ^ (-(cfg.prec : Int)) := by
  have htext : "D(sin(x),x,1)".toList = (Ex.deriv (.fn "sin".toList .sin (.var ['x'])) ['x'] (.num ['1'] none)).text := by decide
  rw [htext]
  refine C66_derivative_text hprec _ _ _ ?_ Real.sin Real.cos 1 1 ?_ (denotes_digit '1' 1 1 rfl (by norm_num))
    (C60_constants (F := F) cfg).1 (fun t _ => Real.hasDerivAt_sin t) ?_
  · exact ⟨⟨by decide, wf_name (n := "x") (by decide)⟩, nameShape_letters (by decide) (by decide), wf_num (s := "1") (by decide)⟩
  · intro u _
    exact .fn _ _ _ [.scalar u] _ (.var _ _ (by simp [Env.set])) (.cons (.sin u) .nil)
  · intro s _ t _
    rw [one_mul]
    exact Real.abs_cos_sub_cos_le s t

/-- `I(x^2,x,0,1)` is within `2/10^(PREC-3)` of `1/3`. -/
example (hprec : 3 ≤ cfg.prec) :
    ∃ v y, Finishes (fun n => quickEval cfg n "I(x^2,x,0,1)".toList (Context.default : Context F)) (.ok [v]) ∧ IsScalar v y ∧
      |y - 1 / 3| ≤ 2 / 10 ^ (cfg.prec - 3) := by
  have htext : "I(x^2,x,0,1)".toList = (Ex.integ (.bin .pow (.var ['x']) (.num ['2'] none)) ['x'] (.num ['0'] none) (.num ['1'] none)).text := by
    decide
  rw [htext]
  have key := C66_integral_text (F := F) (φ := fun _ => none) (ctx := Context.default) hprec
    (.bin .pow (.var ['x']) (.num ['2'] none)) (.num ['0'] none) (.num ['1'] none) ['x'] ?_
    (fun x => x ^ 2) 2 0 1 ?_ (denotes_digit '0' 0 0 rfl (by norm_num)) (denotes_digit '1' 1 1 rfl (by norm_num))
    (C60_constants (F := F) cfg).1 one_pos ?_
  · obtain ⟨v, y, h1, h2, h3⟩ := key
    refine ⟨v, y, h1, h2, ?_⟩
    rw [integral_pow] at h3
    norm_num at h3 ⊢
    exact h3
  · exact ⟨⟨wf_name (n := "x") (by decide), wf_num (s := "2") (by decide), by decide, by decide, nofun⟩,
      nameShape_letters (by decide) (by decide), wf_num (s := "0") (by decide), wf_num (s := "1") (by decide)⟩
  · intro u _
    have hpow : Pow2 (.scalar u) (.scalar 2) (.scalar (u ^ 2)) := by
      have := Pow2.int u 2 (.inl (by norm_num))
      simpa using this
    refine Denotes.bin .pow
      (.var ['x']) (.num ['2'] none) [.scalar u] [.scalar 2] [[.scalar (u ^ 2)]] (.var _ _ (if_pos rfl))
      (denotes_digit '2' 2 2 rfl (by norm_num)) (.cons (.pow hpow) .nil)
  · intro s hs t ht
    have h1 : ((1:ℝ) - 0) / 10 ^ (cfg.prec - 3) ≤ 1 := by
      rw [sub_zero]
      exact div_le_one_of_le₀ (one_le_pow₀ (by norm_num)) (by positivity)
    have h2 : |s + t| ≤ 2 := by
      rw [abs_le]
      constructor <;> linarith [hs.1, hs.2, ht.1, ht.2]
    calc |s ^ 2 - t ^ 2| = |s + t| * |s - t| := by rw [← abs_mul]; ring_nf
      _ ≤ 2 * |s - t| := mul_le_mul_of_nonneg_right h2 (abs_nonneg _)

end
end MUL
