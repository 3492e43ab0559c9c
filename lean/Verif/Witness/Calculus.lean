import Verif.Props.CalculusRules
import Verif.Props.Accuracy
import Verif.Props.Borrowed
import Verif.Num.Real
/-!
# Concrete cases for the theorems of Props/Calculus.lean, CalculusRules.lean, Accuracy.lean and Borrowed.lean
-/

namespace MUL
open Out Spec FArith

/-! ## Exact rational numbers, default precision, empty context -/

abbrev wE : Context Q := Context.empty
abbrev wX : AST Q := .variable ['x']
/-- The number `n`. -/
abbrev wN (n : Int) : AST Q := .scalar (.fin n)

theorem wE_nodup : NoDupVars wE := by simp [NoDupVars, Context.empty]
theorem wN_fin (cfg : Cfg) (ctx : Context Q) (n : Int) : Finishes (fun k => eval cfg k (wN n) ctx) (.ok [.scalar (.fin n)]) := scalar_finishes _ _ _
theorem wN_is (n : Int) : IsScalar (.scalar (.fin n) : Value Q) (n : ℚ) := ⟨_, rfl, rfl⟩
theorem wN_num (cfg : Cfg) (ctx : Context Q) (n : Int) : Number cfg ctx (wN n) (n : ℚ) := ⟨_, wN_fin cfg ctx n, wN_is n⟩

theorem wX_gives (S : ℚ → Prop) (cfg : Cfg) : Gives S cfg wE ['x'] wX (fun t : ℚ => t) := by
  rw [gives_iff]
  intro p t hp _
  exact ⟨.scalar p, ⟨by simp, 1, rfl⟩, p, rfl, hp⟩

theorem wN_gives (S : ℚ → Prop) (cfg : Cfg) (n : Int) : Gives S cfg wE ['x'] (wN n) (fun _ : ℚ => (n : ℚ)) :=
  gives_iff.2 fun _ _ _ _ => wN_num cfg _ n

theorem gives_add {S : ℚ → Prop} {cfg : Cfg} {a b : AST Q} {f g : ℚ → ℚ} (ha : Gives S cfg wE ['x'] a f) (hb : Gives S cfg wE ['x'] b g) :
    Gives S cfg wE ['x'] (.simple .add a b) fun t => f t + g t := by
  rw [gives_iff] at ha hb ⊢
  exact fun p t hp ht => number_add (ha p t hp ht) (hb p t hp ht)

theorem gives_mult {S : ℚ → Prop} {cfg : Cfg} {a b : AST Q} {f g : ℚ → ℚ} (ha : Gives S cfg wE ['x'] a f) (hb : Gives S cfg wE ['x'] b g) :
    Gives S cfg wE ['x'] (.simple .mult a b) fun t => f t * g t := by
  rw [gives_iff] at ha hb ⊢
  exact fun p t hp ht => number_mult (ha p t hp ht) (hb p t hp ht)

/-- `I(x,x,[1],2)`: a bound that is not a number. -/
example := C41_bound_error Cfg.default wE ['x'] wX (.vector [wN 1]) (wN 2) (.vector [.fin 1]) (.scalar (.fin 2)) ⟨by simp, 2, rfl⟩ (wN_fin _ _ 2)
  (Or.inl (by simp [kind]))
/-- A NaN bound. -/
example := C41_incomparable_bounds Cfg.default wE ['x'] wX (.scalar .nan) (wN 2) .nan (.fin 2) (scalar_finishes _ _ _) (wN_fin _ _ 2) rfl rfl rfl
example := C41_equal_bounds Cfg.default wE ['x'] wX (wN 2) (wN 2) (.fin 2) (.fin 2) (wN_fin _ _ 2) (wN_fin _ _ 2) rfl
example := C41_identity (K := ℚ) Cfg.default (by decide) wE wE_nodup ['x'] (wN (-1)) (wN 2) (wN_fin _ _ (-1)) (wN_is (-1)) (wN_fin _ _ 2) (wN_is 2) (by norm_num)
example := C42_symmetric (K := ℚ) Cfg.default wE ['x'] wX (wN 3) (wN 2) (wN_fin _ _ 3) (wN_is 3) (wN_fin _ _ 2) (wN_is 2)
example := C43_arrives (K := ℚ) Cfg.default (by decide)
example := C43_steps (F := Q) (K := ℚ) Cfg.default (by decide) (lb := .fin 1) (ub := .fin 3) rfl rfl (by norm_num) 99999
example := C43_terminates (K := ℚ) Cfg.highPrec (by decide)
/-- `D(3*x+2,x,7)` is exactly 3. -/
example := C44_affine (K := ℚ) Cfg.default wE ['x'] (.simple .add (.simple .mult (wN 3) wX) (wN 2)) (wN 7) 3 2
  (gives_add (gives_mult (wN_gives _ _ 3) (wX_gives _ _)) (wN_gives _ _ 2)) (wN_fin _ _ 7) (wN_is 7)
/-- `D(x,x,[7])`. -/
example := C44_point_error Cfg.default wE ['x'] wX (.vector [wN 7]) (.vector [.fin 7]) ⟨by simp, 2, rfl⟩ (by simp [kind])

/-- `I([x,1],x,0,1)`, an integral of vectors. -/
example := C41_integral_vector (K := ℚ) (k := 2) (m := 1) Cfg.default (by decide) wE wE_nodup ['x'] (.vector [wX, wN 1]) (wN 0) (wN 1)
  (fun _ t => ![t, 1]) (fun p t hp _ => ⟨[.vector [p, .fin 1]], ⟨by simp, 2, rfl⟩, .cons ⟨_, rfl, by rw [List.map_cons, hp]; rfl⟩ .nil⟩)
  (wN_fin _ _ 0) (wN_is 0) (wN_fin _ _ 1) (wN_is 1) (by norm_num)

/-- An integral of 1 × 1 matrices. -/
example := C41_integral_matrix (K := ℚ) (r := 0) (c := 1) (m := 1) Cfg.default (by decide) wE wE_nodup ['x'] (.matrix [[wX]]) (wN 0) (wN 1)
  (fun _ t => Matrix.of fun _ _ => t) (fun p t hp _ => ⟨[.matrix [[p]]], ⟨by simp, 2, rfl⟩, .cons ⟨_, rfl, by simp only [List.map_cons, List.map_nil, hp]; rfl⟩ .nil⟩)
  (wN_fin _ _ 0) (wN_is 0) (wN_fin _ _ 1) (wN_is 1) (by norm_num)

/-- `I(x,x,1±1,3)`: two lower bounds. -/
example := C41_several_bounds Cfg.default wE ['x'] (wN 5) (.simple .addSub (wN 1) (wN 1)) (wN 2) [.scalar (.fin 2), .scalar (.fin 0)] [.scalar (.fin 2)]
  ⟨by simp, 2, by simp only [eval]; decide +kernel⟩ (wN_fin _ _ 2)

/-- The rules for `x` and `x*x` with the factor 3. -/
example := C84_integral (K := ℚ) Cfg.default (by decide) wE wE_nodup ['x'] wX (.simple .mult wX wX) (wN 3) (wN 0) (wN 2) _ _ (wX_gives _ _)
  (gives_mult (wX_gives _ _) (wX_gives _ _)) (wN_gives _ _ 3) (wN_num _ _ 0) (wN_num _ _ 2)
example := C84_substitution (K := ℚ) Cfg.default (by decide) wE wE_nodup ['x'] wX (.simple .add wX (wN 2)) (.simple .mult (wN 2) wX) (wN 0) (wN 3)
  (wN 2) (wN 5) (wN 0) (wN 6) (fun t => t) (c := 2) (by norm_num) (wX_gives _ _) (gives_add (wX_gives _ _) (wN_gives _ _ 2))
  (gives_mult (wN_gives _ _ 2) (wX_gives _ _)) (wN_num _ _ 0) (wN_num _ _ 3) (by simpa using wN_num _ _ 2)
  (by have := wN_num Cfg.default wE 5; norm_num at this ⊢; exact this) (by simpa using wN_num _ _ 0)
  (by have := wN_num Cfg.default wE 6; norm_num at this ⊢; exact this)
example := C84_not_additive (F := Q) (K := ℚ) Cfg.default (by decide) ['x']
example := C84_derivative (K := ℚ) Cfg.default wE ['x'] wX (.simple .mult wX wX) (wN 3) (wN 2) _ _ (wX_gives _ _)
  (gives_mult (wX_gives _ _) (wX_gives _ _)) (wN_gives _ _ 3) (wN_num _ _ 2)
example := C41_default (K := ℚ) wE wE_nodup ['x'] wX (wN 0) (wN 1) (fun t => t) (by norm_num) ⟨wX_gives _ _, wX_gives _ _⟩ ⟨wN_num _ _ 0, wN_num _ _ 0⟩
  ⟨wN_num _ _ 1, wN_num _ _ 1⟩
example := C44_default (K := ℚ) wE ['x'] wX (wN 1) (fun t => t) ⟨wX_gives _ _, wX_gives _ _⟩ ⟨wN_num _ _ 1, wN_num _ _ 1⟩

/-! ## Derivatives of expressions with several values, or with values that cannot be subtracted -/

/-- The values at the two points have different kinds: `{x}` is a number, the function is given by its two values. -/
example := C44_derivative Cfg.default wE ['x'] (.simple .addSub wX (wN 1)) (wN 2) (.fin 2) [.scalar (.fin 3), .scalar (.fin 1)]
  [.scalar (add (add (.fin 2) (stepH Q Cfg.default)) (.fin 1)), .scalar (add (add (.fin 2) (stepH Q Cfg.default)) (mul (.fin 1) (ofInt (-1))))]
  [.scalar (.fin 1), .scalar (.fin 1)] (wN_fin _ _ 2) ⟨by simp, 2, by simp only [eval]; decide +kernel⟩ ⟨by simp, 2, rfl⟩ rfl
  (.cons (by decide +kernel) (.cons (by decide +kernel) .nil))

/-- `I(e,y,2,x)` is one number for `x = 2`. -/
theorem wI_equal (e : AST Q) : Finishes (fun n => eval Cfg.default n (.integral e ['y'] (wN 2) wX) (setVar wE ['x'] (.fin 2))) (.ok [.scalar (ofInt 0)]) :=
  C41_equal_bounds Cfg.default _ ['y'] e (wN 2) wX (.fin 2) (.fin 2) (wN_fin _ _ 2) ⟨by simp, 1, rfl⟩ (by decide +kernel)

/-- `D(I({1,1},y,2,x),x,2)`: one value at 2, two values at the next point. -/
example : ∃ msg, Finishes (fun n => eval Cfg.default n (.derivative (.integral (.list [wN 1, wN 1]) ['y'] (wN 2) wX) ['x'] (wN 2)) wE)
    (.err (.mathError msg)) := by
  obtain ⟨vs, h1, h2⟩ := C41_integral (K := ℚ) (m := 2) Cfg.default (by decide) (setVar wE ['x'] (add (.fin 2) (stepH Q Cfg.default)))
    (by simp [NoDupVars, Context.empty, setVar, Context.addVar]) ['y'] (.list [wN 1, wN 1]) (wN 2) wX (fun _ _ => 1)
    (fun p t _ _ => ⟨[.scalar (.fin 1), .scalar (.fin 1)], ⟨by simp, 2, rfl⟩, .cons (wN_is 1) (.cons (wN_is 1) .nil)⟩)
    (wN_fin _ _ 2) (wN_is 2) (u := .scalar (add (.fin 2) (stepH Q Cfg.default))) ⟨by simp, 1, rfl⟩ (b := 2 + 1 / 10 ^ 8) ⟨_, rfl, by decide +kernel⟩
    (by norm_num)
  exact C44_count_error Cfg.default wE ['x'] _ (wN 2) (.fin 2) _ vs (wN_fin _ _ 2) (wI_equal _) h1 (by rw [h2.length_eq]; simp)

/-- `D(I([1],y,2,x),x,2)`: a number at 2, a vector at the next point. -/
example : Finishes (fun n => eval Cfg.default n (.derivative (.integral (.vector [wN 1]) ['y'] (wN 2) wX) ['x'] (wN 2)) wE)
    (.err (.mathError "Can't subtract scalar from vector!")) := by
  obtain ⟨vs, h1, h2⟩ := C41_integral_vector (K := ℚ) (m := 1) (k := 1) Cfg.default (by decide) (setVar wE ['x'] (add (.fin 2) (stepH Q Cfg.default)))
    (by simp [NoDupVars, Context.empty, setVar, Context.addVar]) ['y'] (.vector [wN 1]) (wN 2) wX (fun _ _ _ => 1)
    (fun p t _ _ => ⟨[.vector [.fin 1]], ⟨by simp, 2, rfl⟩, .cons ⟨_, rfl, rfl⟩ .nil⟩)
    (wN_fin _ _ 2) (wN_is 2) (u := .scalar (add (.fin 2) (stepH Q Cfg.default))) ⟨by simp, 1, rfl⟩ (b := 2 + 1 / 10 ^ 8) ⟨_, rfl, by decide +kernel⟩
    (by norm_num)
  cases h2 with
  | cons hv hn =>
    cases hn
    obtain ⟨l, rfl, _⟩ := hv
    exact C44_value_error Cfg.default wE ['x'] _ (wN 2) (.fin 2) [.scalar (ofInt 0)] [.vector l] (wN_fin _ _ 2) (wI_equal _) h1 rfl [] []
      (.scalar (ofInt 0), .vector l) _ rfl (by simp) rfl

/-! ## C94: the functions called directly -/

example := C94_context_ok Cfg.default 3 wX ['x'] (.scalar (.fin 1)) wE [.scalar (.fin 1)] (by decide +kernel)
example := C94_context_kind Cfg.default 3 wX ['x'] (.vector [.fin 1]) wE (by simp [kind])
example := C94_newton_first Cfg.default 3 wX ['x'] (.scalar (.fin 1)) wE (.scalar (.fin 1)) [] (by decide +kernel)
example := C94_newton_given Cfg.default wX ['x'] (.fin 1) (.scalar (.fin 1)) (.scalar (add (.fin 1) (stepH Q Cfg.default))) [] wE (.scalar (.fin 1))
  ⟨by simp, 1, rfl⟩ (by decide +kernel)
/-- `{}` has no values. -/
example := C94_newton_empty Cfg.default (.list []) ['x'] (.fin 1 : Q) wE ⟨by simp, 1, rfl⟩
example := C94_integral_shadowed Cfg.default ['x'] [⟨['y'], []⟩] [⟨['z'], []⟩] [] [] (.fin 5 : Q) (.fin 0) (.fin 1) [] (by simp) (by simp)
example := C94_shadowed_value (F := Q) (K := ℚ) Cfg.default (by decide) ['x'] [.vector []] (.fin 5) (.fin 0) (.fin 2) rfl rfl rfl

/-! ## C66 for `sin` at 1 and on `[0, 1]`, with exact real numbers -/

abbrev wR : Context (Ext ℝ) := Context.empty

theorem wSin (S : ℝ → Prop) (cfg : Cfg) : ComputesOn S IsScalar cfg wR ['x'] (.simple .sin (.variable ['x']) (.scalar (ofInt 0)))
    (fun (_ : Fin 1) => Real.sin) := fun p t hp _ =>
  ⟨[.scalar (FElem.sin p)], ⟨by simp, 2, rfl⟩, .cons ⟨_, rfl, by rw [ExactReal.val_sin, hp]; rfl⟩ .nil⟩

example := C66_derivative Cfg.default wR ['x'] _ (.scalar (ofInt 1)) Real.sin Real.cos 1 (a := 1) (wSin _ _) (scalar_finishes _ _ _)
  ⟨_, rfl, by simpa using Exact.val_ofInt (F := Ext ℝ) (K := ℝ) 1⟩ (fun t _ => Real.hasDerivAt_sin t)
  (fun s _ t _ => by rw [one_mul]; exact Real.abs_cos_sub_cos_le s t)
example := C66_integral Cfg.default (by decide) wR (by simp [NoDupVars, Context.empty]) ['x'] _ (.scalar (ofInt 0)) (.scalar (ofInt 1)) Real.sin 1
  (a := 0) (b := 1) (wSin _ _) (scalar_finishes _ _ _) ⟨_, rfl, by simpa using Exact.val_ofInt (F := Ext ℝ) (K := ℝ) 0⟩ (scalar_finishes _ _ _)
  ⟨_, rfl, by simpa using Exact.val_ofInt (F := Ext ℝ) (K := ℝ) 1⟩ one_pos
  (fun s _ t _ => by rw [one_mul]; exact Real.abs_sin_sub_sin_le s t)

end MUL
