import Verif.Props.Calculus
import Verif.Spec.CalculusRules
/-!
# C84: rules of calculus

With exact arithmetic, which of the usual rules hold for the results of `I(...)` and `D(...)`.
-/

namespace MUL
open Out Spec

set_option linter.unusedSectionVars false

section
variable {F : Type} [FNum F] {K : Type} [Field K] [LinearOrder K] [IsStrictOrderedRing K] [FloorRing K] [Exact F K]

/-! ## The sums -/

theorem riemann_add (N : Nat) (f g : K → K) (a b : K) : riemann N (fun t => f t + g t) a b = riemann N f a b + riemann N g a b := by
  unfold riemann
  rw [← smul_add, ← List.sum_map_add]

theorem riemann_smul (N : Nat) (c : K) (f : K → K) (a b : K) : riemann N (fun t => c * f t) a b = c * riemann N f a b := by
  unfold riemann
  rw [List.sum_map_mul_left, smul_eq_mul, smul_eq_mul]
  ring

theorem riemann_mono (N : Nat) (f g : K → K) (a b : K) (hab : a ≤ b) (h : ∀ t, SamplePoint N a b t → f t ≤ g t) :
    riemann N f a b ≤ riemann N g a b := by
  unfold riemann
  rw [smul_eq_mul, smul_eq_mul]
  refine mul_le_mul_of_nonneg_left (List.sum_le_sum ?_) (div_nonneg (sub_nonneg.2 hab) (by positivity))
  intro i hi
  exact h _ ⟨i, List.mem_range.1 hi, rfl⟩

theorem riemann_shift (N : Nat) (c : K) (f : K → K) (a b : K) : riemann N (fun t => f (t + c)) a b = riemann N f (a + c) (b + c) := by
  unfold riemann
  rw [add_sub_add_right_eq_sub]
  congr 2
  refine List.map_congr_left fun i _ => ?_
  exact congrArg f (by ring)

theorem riemann_scale (N : Nat) (c : K) (f : K → K) (a b : K) : c * riemann N (fun t => f (c * t)) a b = riemann N f (c * a) (c * b) := by
  unfold riemann
  rw [smul_eq_mul, smul_eq_mul, ← mul_sub, ← mul_assoc, ← mul_div_assoc]
  congr 2
  refine List.map_congr_left fun i _ => ?_
  exact congrArg f (by ring)

/-! ## Expressions with one number as value -/

theorem gives_iff {S : K → Prop} {cfg : Cfg} {ctx : Context F} {x : Str} {e : AST F} {f : K → K} :
    Gives S cfg ctx x e f ↔ ∀ (p : F) (t : K), Exact.val p = some t → S t → Number cfg (setVar ctx x p) e (f t) := by
  constructor
  · intro h p t hp ht
    obtain ⟨vs, h1, h2⟩ := h p t hp ht
    obtain ⟨v, rfl, hv⟩ := listIs_one h2
    exact ⟨v, h1, hv⟩
  · intro h p t hp ht
    obtain ⟨w, h1, h2⟩ := h p t hp ht
    refine ⟨[w], h1, ?_⟩
    simp only [ListIs, List.ofFn_succ, List.ofFn_zero]
    exact .cons h2 .nil

theorem number_op {cfg : Cfg} {ctx : Context F} {op : SimpleOp} {l r : AST F} {u v : K} {w : K} (hl : Number cfg ctx l u)
    (hr : Number cfg ctx r v)
    (h : ∀ a b : Value F, IsScalar a u → IsScalar b v → ∃ c, opTable op a b = .ok [c] ∧ IsScalar c w) :
    Number cfg ctx (.simple op l r) w := by
  obtain ⟨a, ha, ha'⟩ := hl
  obtain ⟨b, hb, hb'⟩ := hr
  obtain ⟨c, hc, hc'⟩ := h a b ha' hb'
  refine ⟨c, ?_, hc'⟩
  have := C19_results (op := op) ha hb (fun _ => [c]) (by
    intro p hp
    obtain rfl : p = (a, b) := by simpa [pairs] using hp
    exact hc)
  simpa [pairs, eval] using this

theorem number_add {cfg : Cfg} {ctx : Context F} {l r : AST F} {u v : K} (hl : Number cfg ctx l u) (hr : Number cfg ctx r v) :
    Number cfg ctx (.simple .add l r) (u + v) := by
  refine number_op hl hr fun a b ha hb => ?_
  obtain ⟨c, hc, hc'⟩ := C30_sum.1 _ _ ha hb
  exact ⟨c, by simp only [opTable, hc]; rfl, hc'⟩

theorem number_mult {cfg : Cfg} {ctx : Context F} {l r : AST F} {u v : K} (hl : Number cfg ctx l u) (hr : Number cfg ctx r v) :
    Number cfg ctx (.simple .mult l r) (u * v) := by
  refine number_op hl hr fun a b ha hb => ?_
  obtain ⟨a, rfl, ha⟩ := ha
  obtain ⟨b, rfl, hb⟩ := hb
  exact ⟨_, rfl, _, rfl, Exact.val_mul ha hb⟩

theorem number_integral (cfg : Cfg) (hprec : 3 ≤ cfg.prec) (ctx : Context F) (hd : NoDupVars ctx) (x : Str) (e lo hi : AST F)
    (f : K → K) {a b : K} (he : Gives (SamplePoint (10 ^ (cfg.prec - 3)) (min a b) (max a b)) cfg ctx x e f)
    (hlo : Number cfg ctx lo a) (hhi : Number cfg ctx hi b) :
    Number cfg ctx (.integral e x lo hi) (riemann (10 ^ (cfg.prec - 3)) f (min a b) (max a b)) := by
  obtain ⟨l, hlo, hl⟩ := hlo
  obtain ⟨u, hhi, hu⟩ := hhi
  by_cases hab : a = b
  · obtain ⟨l, rfl, hl⟩ := hl
    obtain ⟨u, rfl, hu⟩ := hu
    refine ⟨_, C41_equal_bounds cfg ctx x e lo hi l u hlo hhi (by rw [Exact.beq_val hl hu]; simpa using hab), _, rfl, ?_⟩
    rw [val_zero, hab]
    simp [riemann]
  · obtain ⟨vs, h1, h2⟩ := C41_integral cfg hprec ctx hd x e lo hi _ he hlo hl hhi hu hab
    obtain ⟨v, rfl, hv⟩ := listIs_one h2
    exact ⟨v, h1, hv⟩

theorem number_derivative (cfg : Cfg) (ctx : Context F) (x : Str) (e at_ : AST F) (f : K → K) {a : K}
    (he : Gives (fun t => t = a ∨ t = a + (10 : K) ^ (-(cfg.prec : Int))) cfg ctx x e f) (hat : Number cfg ctx at_ a) :
    Number cfg ctx (.derivative e x at_) ((f (a + (10 : K) ^ (-(cfg.prec : Int))) - f a) / (10 : K) ^ (-(cfg.prec : Int))) := by
  obtain ⟨p, hat, hp⟩ := hat
  obtain ⟨vs, h1, h2⟩ := C44_exact cfg ctx x e at_ _ he hat hp
  obtain ⟨v, rfl, hv⟩ := listIs_one h2
  exact ⟨v, h1, hv⟩

/-! ## Integrals -/

/-- C84: the integral of a sum is the sum of the integrals, a factor can be taken out, and a larger integrand has a larger integral. -/
theorem C84_integral (cfg : Cfg) (hprec : 3 ≤ cfg.prec) (ctx : Context F) (hd : NoDupVars ctx) (x : Str) (e e' c lo hi : AST F)
    (f g : K → K) {a b s : K} (he : Gives (Samples cfg a b) cfg ctx x e f) (he' : Gives (Samples cfg a b) cfg ctx x e' g)
    (hc : Gives (Samples cfg a b) cfg ctx x c fun _ => s) (hlo : Number cfg ctx lo a) (hhi : Number cfg ctx hi b) :
    ∃ I J : K, Number cfg ctx (.integral e x lo hi) I ∧ Number cfg ctx (.integral e' x lo hi) J ∧
      Number cfg ctx (.integral (.simple .add e e') x lo hi) (I + J) ∧
      Number cfg ctx (.integral (.simple .mult c e) x lo hi) (s * I) ∧
      ((∀ t, Samples cfg a b t → f t ≤ g t) → I ≤ J) ∧
      (∀ m M, (∀ t, Samples cfg a b t → m ≤ f t ∧ f t ≤ M) → m * |b - a| ≤ I ∧ I ≤ M * |b - a|) := by
  refine ⟨_, _, number_integral cfg hprec ctx hd x e lo hi f he hlo hhi, number_integral cfg hprec ctx hd x e' lo hi g he' hlo hhi,
    ?_, ?_, ?_, ?_⟩
  · rw [← riemann_add]
    refine number_integral cfg hprec ctx hd x _ lo hi _ ?_ hlo hhi
    rw [gives_iff] at he he' ⊢
    exact fun p t hp ht => number_add (he p t hp ht) (he' p t hp ht)
  · rw [← riemann_smul]
    refine number_integral cfg hprec ctx hd x _ lo hi _ ?_ hlo hhi
    rw [gives_iff] at he hc ⊢
    exact fun p t hp ht => number_mult (hc p t hp ht) (he p t hp ht)
  · exact fun h => riemann_mono _ f g _ _ min_le_max h
  · intro m M h
    rw [← max_sub_min_eq_abs, ← riemann_const (10 ^ (cfg.prec - 3)) (by positivity), ← riemann_const (10 ^ (cfg.prec - 3)) (by positivity)]
    exact ⟨riemann_mono _ _ f _ _ min_le_max fun t ht => (h t ht).1, riemann_mono _ f _ _ _ min_le_max fun t ht => (h t ht).2⟩

/-- C84: substitution: `I(f(x+c),x,a,b)` is `I(f(x),x,a+c,b+c)`, and `c*I(f(c*x),x,a,b)` is `I(f(x),x,c*a,c*b)` for positive `c`. -/
theorem C84_substitution (cfg : Cfg) (hprec : 3 ≤ cfg.prec) (ctx : Context F) (hd : NoDupVars ctx) (x : Str)
    (e e1 e2 lo hi lo1 hi1 lo2 hi2 : AST F) (f : K → K) {a b c : K} (hc : 0 < c)
    (he : Gives (fun _ => True) cfg ctx x e f) (he1 : Gives (fun _ => True) cfg ctx x e1 fun t => f (t + c))
    (he2 : Gives (fun _ => True) cfg ctx x e2 fun t => f (c * t)) (hlo : Number cfg ctx lo a) (hhi : Number cfg ctx hi b)
    (hlo1 : Number cfg ctx lo1 (a + c)) (hhi1 : Number cfg ctx hi1 (b + c)) (hlo2 : Number cfg ctx lo2 (c * a))
    (hhi2 : Number cfg ctx hi2 (c * b)) :
    (∃ I : K, Number cfg ctx (.integral e1 x lo hi) I ∧ Number cfg ctx (.integral e x lo1 hi1) I) ∧
    ∃ I : K, Number cfg ctx (.integral e2 x lo hi) I ∧ Number cfg ctx (.integral e x lo2 hi2) (c * I) := by
  have on : ∀ {e : AST F} {g : K → K} (S : K → Prop), Gives (fun _ => True) cfg ctx x e g → Gives S cfg ctx x e g :=
    fun S h p t hp _ => h p t hp trivial
  refine ⟨⟨_, number_integral cfg hprec ctx hd x e1 lo hi _ (on _ he1) hlo hhi, ?_⟩,
    ⟨_, number_integral cfg hprec ctx hd x e2 lo hi _ (on _ he2) hlo hhi, ?_⟩⟩
  · rw [riemann_shift, ← min_add_add_right, ← max_add_add_right]
    exact number_integral cfg hprec ctx hd x e lo1 hi1 _ (on _ he) hlo1 hhi1
  · rw [riemann_scale, mul_min_of_nonneg _ _ hc.le, mul_max_of_nonneg _ _ hc.le]
    exact number_integral cfg hprec ctx hd x e lo2 hi2 _ (on _ he) hlo2 hhi2

/-- C84: the integrals over two adjacent intervals do not add up: `I(x,x,0,1)+I(x,x,1,2)` is not `I(x,x,0,2)`. -/
theorem C84_not_additive (cfg : Cfg) (hprec : 3 ≤ cfg.prec) (x : Str) :
    ∃ I J L : K, Number cfg (Context.empty : Context F) (.integral (.variable x) x (.scalar (FArith.ofInt 0)) (.scalar (FArith.ofInt 1))) I ∧
      Number cfg (Context.empty : Context F) (.integral (.variable x) x (.scalar (FArith.ofInt 1)) (.scalar (FArith.ofInt 2))) J ∧
      Number cfg (Context.empty : Context F) (.integral (.variable x) x (.scalar (FArith.ofInt 0)) (.scalar (FArith.ofInt 2))) L ∧
      I + J ≠ L := by
  have h0 := val_zero (F := F) (K := K)
  have h1 := val_one (F := F) (K := K)
  have h2 : Exact.val (FArith.ofInt 2 : F) = some (2 : K) := by simpa using Exact.val_ofInt (F := F) (K := K) 2
  have hd : NoDupVars (Context.empty : Context F) := by simp [NoDupVars, Context.empty]
  have i01 := C41_identity (K := K) cfg hprec (Context.empty : Context F) hd x _ _ (scalar_finishes cfg _ _) ⟨_, rfl, h0⟩ (scalar_finishes cfg _ _)
    ⟨_, rfl, h1⟩ (by norm_num)
  have i12 := C41_identity (K := K) cfg hprec (Context.empty : Context F) hd x _ _ (scalar_finishes cfg _ _) ⟨_, rfl, h1⟩ (scalar_finishes cfg _ _)
    ⟨_, rfl, h2⟩ (by norm_num)
  have i02 := C41_identity (K := K) cfg hprec (Context.empty : Context F) hd x _ _ (scalar_finishes cfg _ _) ⟨_, rfl, h0⟩ (scalar_finishes cfg _ _)
    ⟨_, rfl, h2⟩ (by norm_num)
  refine ⟨_, _, _, i01, i12, i02, ?_⟩
  have hN : (10 : K) ^ (cfg.prec - 3) ≠ 0 := by positivity
  intro h
  field_simp at h
  have : (4 : K) = 0 := by linarith
  norm_num at this

/-! ## Derivatives -/

/-- C84: the derivative of a sum is the sum of the derivatives, a factor can be taken out; the derivative of a product is
`f'(a)*g(a+h) + f(a)*g'(a)`. -/
theorem C84_derivative (cfg : Cfg) (ctx : Context F) (x : Str) (e e' c at_ : AST F) (f g : K → K) {a s : K}
    (he : Gives (fun t => t = a ∨ t = a + (10 : K) ^ (-(cfg.prec : Int))) cfg ctx x e f)
    (he' : Gives (fun t => t = a ∨ t = a + (10 : K) ^ (-(cfg.prec : Int))) cfg ctx x e' g)
    (hc : Gives (fun t => t = a ∨ t = a + (10 : K) ^ (-(cfg.prec : Int))) cfg ctx x c fun _ => s) (hat : Number cfg ctx at_ a) :
    ∃ D E : K, Number cfg ctx (.derivative e x at_) D ∧ Number cfg ctx (.derivative e' x at_) E ∧
      Number cfg ctx (.derivative (.simple .add e e') x at_) (D + E) ∧
      Number cfg ctx (.derivative (.simple .mult c e) x at_) (s * D) ∧
      Number cfg ctx (.derivative (.simple .mult e e') x at_) (D * g (a + (10 : K) ^ (-(cfg.prec : Int))) + f a * E) := by
  have hpos : (10 : K) ^ (-(cfg.prec : Int)) ≠ 0 := zpow_ne_zero _ (by norm_num)
  have hef := gives_iff.1 he
  have heg := gives_iff.1 he'
  have hes := gives_iff.1 hc
  refine ⟨_, _, number_derivative cfg ctx x e at_ f he hat, number_derivative cfg ctx x e' at_ g he' hat, ?_, ?_, ?_⟩
  · have := number_derivative cfg ctx x (.simple .add e e') at_ (fun t => f t + g t)
      (gives_iff.2 fun p t hp ht => number_add (hef p t hp ht) (heg p t hp ht)) hat
    convert this using 1
    field_simp
    ring
  · have := number_derivative cfg ctx x (.simple .mult c e) at_ (fun t => s * f t)
      (gives_iff.2 fun p t hp ht => number_mult (hes p t hp ht) (hef p t hp ht)) hat
    convert this using 1
    field_simp
  · have := number_derivative cfg ctx x (.simple .mult e e') at_ (fun t => f t * g t)
      (gives_iff.2 fun p t hp ht => number_mult (hef p t hp ht) (heg p t hp ht)) hat
    convert this using 1
    field_simp
    ring

/-! ## The precision of the crate -/

/-- C41: integrals use 100000 points, and 10000000000 with the feature `high-prec`. -/
theorem C41_default (ctx : Context F) (hd : NoDupVars ctx) (x : Str) (e lo hi : AST F) (f : K → K) {a b : K} (hab : a ≤ b)
    (he : Gives (fun _ => True) Cfg.default ctx x e f ∧ Gives (fun _ => True) Cfg.highPrec ctx x e f)
    (hlo : Number Cfg.default ctx lo a ∧ Number Cfg.highPrec ctx lo a) (hhi : Number Cfg.default ctx hi b ∧ Number Cfg.highPrec ctx hi b) :
    Number Cfg.default ctx (.integral e x lo hi) (riemann 100000 f a b) ∧
    Number Cfg.highPrec ctx (.integral e x lo hi) (riemann 10000000000 f a b) := by
  have h1 := number_integral Cfg.default (by decide) ctx hd x e lo hi f (a := a) (b := b) (fun p t hp _ => he.1 p t hp trivial) hlo.1 hhi.1
  have h2 := number_integral Cfg.highPrec (by decide) ctx hd x e lo hi f (a := a) (b := b) (fun p t hp _ => he.2 p t hp trivial) hlo.2 hhi.2
  rw [min_eq_left hab, max_eq_right hab] at h1 h2
  exact ⟨h1, h2⟩

/-- C44: the step of the difference quotient is `10^-8`, and `10^-13` with the feature `high-prec`. -/
theorem C44_default (ctx : Context F) (x : Str) (e at_ : AST F) (f : K → K) {a : K}
    (he : Gives (fun _ => True) Cfg.default ctx x e f ∧ Gives (fun _ => True) Cfg.highPrec ctx x e f)
    (hat : Number Cfg.default ctx at_ a ∧ Number Cfg.highPrec ctx at_ a) :
    Number Cfg.default ctx (.derivative e x at_) ((f (a + 1 / 10 ^ 8) - f a) / (1 / 10 ^ 8)) ∧
    Number Cfg.highPrec ctx (.derivative e x at_) ((f (a + 1 / 10 ^ 13) - f a) / (1 / 10 ^ 13)) := by
  have h1 := number_derivative Cfg.default ctx x e at_ f (a := a) (fun p t hp _ => he.1 p t hp trivial) hat.1
  have h2 := number_derivative Cfg.highPrec ctx x e at_ f (a := a) (fun p t hp _ => he.2 p t hp trivial) hat.2
  have e1 : (10 : K) ^ (-(Cfg.default.prec : Int)) = 1 / 10 ^ 8 := by
    rw [show Cfg.default.prec = 8 from rfl, zpow_neg, zpow_natCast, one_div]
  have e2 : (10 : K) ^ (-(Cfg.highPrec.prec : Int)) = 1 / 10 ^ 13 := by
    rw [show Cfg.highPrec.prec = 13 from rfl, zpow_neg, zpow_natCast, one_div]
  rw [e1] at h1
  rw [e2] at h2
  exact ⟨h1, h2⟩

/-- The hypotheses are met by `x`, `x*x` and the factor 3. -/
example (cfg : Cfg) (S : K → Prop) (ctx : Context F) : Gives S cfg ctx ['x'] (.variable ['x']) (fun t : K => t) ∧
    Gives S cfg ctx ['x'] (.simple .mult (.variable ['x']) (.variable ['x'])) (fun t : K => t * t) ∧
    Gives S cfg ctx ['x'] (.scalar (FArith.ofInt 3)) (fun _ : K => 3) := by
  have hx : Gives S cfg ctx ['x'] (.variable ['x']) (fun t : K => t) := by
    rw [gives_iff]
    intro p t hp _
    refine ⟨.scalar p, ⟨by simp, 1, ?_⟩, p, rfl, hp⟩
    have : (setVar ctx ['x'] p).findVar ['x'] = some [.scalar p] := by
      have hnone : ctx.vars.find? (fun _ => false) = none := by simp [List.find?_eq_none]
      simp [setVar, Context.addVar, Context.findVar, List.find?_append, hnone]
    simp only [eval, evalRec, this]
  refine ⟨hx, ?_, ?_⟩
  · rw [gives_iff] at hx ⊢
    exact fun p t hp ht => number_mult (hx p t hp ht) (hx p t hp ht)
  · refine (computes_const cfg ctx _ ?_).on _
    simpa using Exact.val_ofInt (F := F) (K := K) 3

end
end MUL
