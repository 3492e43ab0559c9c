import Verif.Proofs.RoundingExact
import Verif.Proofs.Whole
import Verif.Props.Denote
/-!
# C67, C68: rounding errors in binary64 arithmetic
-/

set_option linter.unusedSectionVars false

namespace MUL
open Out Spec FArith

section
variable {F : Type} [FNum F] [Binary64 F] {u : ℝ} [Libm F u] [UTable]

/-- **C67.** Let the numbers be binary64 numbers and the elementary functions be accurate to `u`. If rounding error analysis derives the
bounds `o` for the formula `e` from bounds of the variables, then evaluating the text of `e` succeeds with exactly one result, whose numbers
are within these bounds. -/
theorem C67_formula (cfg : Cfg) (φ : Defs) (ρ : EnvR) (e : Ex) (o : ObjR) (hwf : e.WF) (h : Rounds cfg u φ [] ρ e o) (ctx : Context F)
    (hm : ModelsR cfg ctx ρ φ) : ∃ v, Finishes (fun n => quickEval cfg n e.text ctx) (.ok [v]) ∧ NearV v o := by
  obtain ⟨v, h1, h2⟩ := rounds_eval h hm
  exact ⟨v, ((C29_eval cfg e.text ctx (C09_parse_text (F := F) cfg e hwf)).1 _).1 h1, h2⟩

omit [Binary64 F] [Libm F u] [UTable] in
/-- C67: the numbers whose distance is bounded are those the formula means (C60), where the variables mean the exact numbers. -/
theorem C67_exact_value (cfg : Cfg) (φ : Defs) (ρ : EnvR) (σ : Env) (e : Ex) (o : ObjR) (h : Rounds cfg u φ [] ρ e o) (hσ : EnvExact ρ σ) :
    ∃ obj, Denotes cfg φ [] σ e [obj] ∧ ExactOf o obj := rounds_denotes h hσ

/-- C67 for numbers: the formula means one number `x`, and the result is a number within the bound of `x`. -/
theorem C67_number (cfg : Cfg) (φ : Defs) (ρ : EnvR) (σ : Env) (e : Ex) (p : Approx) (hwf : e.WF) (h : Rounds cfg u φ [] ρ e (.scalar p))
    (hσ : EnvExact ρ σ) (ctx : Context F) (hm : ModelsR cfg ctx ρ φ) :
    ∃ (a : F) (q : ℚ) (x : ℝ), Finishes (fun n => quickEval cfg n e.text ctx) (.ok [.scalar a]) ∧ Binary64.val a = some q ∧
      Denotes cfg φ [] σ e [.scalar x] ∧ |(q : ℝ) - x| ≤ p.err := by
  obtain ⟨v, h1, h2⟩ := C67_formula cfg φ ρ e _ hwf h ctx hm
  obtain ⟨obj, h3, h4⟩ := rounds_denotes h hσ
  cases h4
  cases v <;> simp only [NearV] at h2
  obtain ⟨q, h5, h6⟩ := h2
  exact ⟨_, q, _, h1, h5, h3, h6⟩

omit [UTable] in
/-- C67: in the default context `pi` and `e` are the circle number and Euler's number up to the accuracy `u`. -/
theorem C67_constants (cfg : Cfg) :
    ModelsR cfg (Context.default : Context F)
      (fun n => if n = ['p', 'i'] then some (.scalar ⟨Real.pi, libErr u Real.pi⟩)
        else if n = ['e'] then some (.scalar ⟨Real.exp 1, libErr u (Real.exp 1)⟩) else none) (fun _ => none) := by
  refine ⟨by simp [NoDupVars, Context.default], ?_, nofun⟩
  intro n o hn
  split at hn
  · next h =>
    subst h
    cases hn
    exact ⟨_, rfl, Libm.pi⟩
  · split at hn
    · next h =>
      subst h
      cases hn
      exact ⟨_, rfl, Libm.e⟩
    · cases hn

omit [Libm F u] [UTable] in
/-- C67: sums, differences, products and quotients of numbers are binary64 numbers nearest to the exact ones, unless they overflow. -/
theorem C67_operations {a b : F} {x y : ℚ} (ha : Binary64.val a = some x) (hb : Binary64.val b = some y) :
    (|x + y| < 2 ^ 1024 - 2 ^ 970 → ∃ c z, vAdd (.scalar a) (.scalar b) = .ok (.scalar c) ∧ Binary64.val c = some z ∧ NearestDouble (x + y) z) ∧
    (|x - y| < 2 ^ 1024 - 2 ^ 970 → ∃ c z, vSub (.scalar a) (.scalar b) = .ok (.scalar c) ∧ Binary64.val c = some z ∧ NearestDouble (x - y) z) ∧
    (|x * y| < 2 ^ 1024 - 2 ^ 970 → ∃ c z, vMult (.scalar a) (.scalar b) = .ok (.scalar c) ∧ Binary64.val c = some z ∧ NearestDouble (x * y) z) ∧
    (y ≠ 0 → |x / y| < 2 ^ 1024 - 2 ^ 970 → ∃ c z, vDiv (.scalar a) (.scalar b) = .ok (.scalar c) ∧ Binary64.val c = some z ∧
      NearestDouble (x / y) z) := by
  have key : ∀ w : ℚ, |w| < 2 ^ 1024 - 2 ^ 970 → NearestDouble w (F64.fl w) := fun w hw =>
    ⟨F64.representable_fl (F64.fl_no_overflow hw), fun r hr => F64.fl_nearest w r hr⟩
  refine ⟨fun h => ⟨_, _, rfl, Binary64.val_add ha hb h, key _ h⟩, ?_, fun h => ⟨_, _, rfl, Binary64.val_mul ha hb h, key _ h⟩,
    fun hy h => ⟨_, _, rfl, Binary64.val_div ha hb hy h, key _ h⟩⟩
  intro h
  have h1 : Binary64.val (mul b (ofInt (-1))) = some (-y) := by
    have hr := representable_neg (Binary64.rep hb)
    have h2 := Binary64.val_mul hb (val_int (F := F) (n := -1) (by norm_num)) (by
      push_cast
      rw [mul_neg_one]
      exact rep_lt_limit hr)
    push_cast at h2
    rwa [mul_neg_one, F64.fl_representable hr] at h2
  refine ⟨_, _, rfl, ?_, key _ h⟩
  have := Binary64.val_add ha h1 (by rwa [← sub_eq_add_neg])
  rwa [← sub_eq_add_neg] at this

end

section
variable {F : Type} [FNum F] [Binary64 F] {u : ℝ} [Libm F u] [UTable]

omit [Libm F u] [UTable] in
theorem near_exactR {a : F} {n : Int} : Near a (exactR n) ↔ Binary64.val a = some (n : ℚ) := by
  constructor
  · rintro ⟨q, h1, h2⟩
    have := near_zero h2
    simp only [exactR] at this
    have h3 : q = (n : ℚ) := by exact_mod_cast this
    rw [h1, h3]
  · intro h
    exact ⟨n, h, by simp [exactR]⟩

omit [Libm F u] [UTable] in
theorem near_toR {v : Value F} {n : Ints} : NearV v n.toR ↔ Stores v n := by
  cases v <;> cases n <;> simp only [Ints.toR, NearV, Stores]
  · rw [List.forall₂_map_right_iff]
    exact ⟨fun h => h.imp fun _ _ => near_exactR.1, fun h => h.imp fun _ _ => near_exactR.2⟩
  · exact near_exactR

include u in
/-- **C68.** Formulas over whole numbers are computed without any rounding as long as no number on the way exceeds `2^53`. -/
theorem C68_whole (cfg : Cfg) (ρ : Str → Option Ints) (e : Ex) (n : Ints) (hwf : e.WF) (h : WholeEx ρ e n) (ctx : Context F) (hd : NoDupVars ctx)
    (hρ : ∀ x m, ρ x = some m → ∃ v, ctx.findVar x = some [v] ∧ Stores v m) :
    ∃ v, Finishes (fun k => quickEval cfg k e.text ctx) (.ok [v]) ∧ Stores v n := by
  obtain ⟨v, h1, h2⟩ := C67_formula (u := u) cfg (fun _ => none) (fun x => (ρ x).map Ints.toR) e _ hwf (whole_rounds h) ctx
    ⟨hd, by
      intro x o hx
      obtain ⟨m, hm, rfl⟩ := Option.map_eq_some_iff.1 hx
      obtain ⟨v, hv1, hv2⟩ := hρ x m hm
      exact ⟨v, hv1, near_toR.2 hv2⟩, nofun⟩
  exact ⟨v, h1, near_toR.1 h2⟩

end

/-! ## Examples -/

section
variable {F : Type} [FNum F] [Binary64 F] {u : ℝ} [Libm F u] [UTable]

/-- `0.1+0.2` is not exact, but within `2^-52` of `0.3`. -/
example (cfg : Cfg) : ∃ (a : F) (q : ℚ), Finishes (fun n => quickEval cfg n "0.1+0.2".toList (⟨[], []⟩ : Context F)) (.ok [.scalar a]) ∧
    Binary64.val a = some q ∧ |(q : ℝ) - 0.3| ≤ 1 / 2 ^ 52 := by
  have n1 : Spec.numeral ['0'] (some ['1']) = 1 / 10 := by
    have : digitsNumber ['0', '1'] = 1 := by decide
    norm_num [Spec.numeral, this]
  have n2 : Spec.numeral ['0'] (some ['2']) = 1 / 5 := by
    have : digitsNumber ['0', '2'] = 2 := by decide
    norm_num [Spec.numeral, this]
  have big : (2 : ℝ) < overflow := by
    have : |(2 : ℝ)| < overflow := Double.small (Double.tiny (by norm_num))
    rwa [abs_of_pos (by norm_num)] at this
  have e1 : roundErr (1 / 10) ≤ 1 / 2 ^ 56 := by
    unfold roundErr
    exact max_le (by norm_num) (one_div_le_one_div_of_le (by positivity) (pow_le_pow_right₀ (by norm_num) (by norm_num)))
  have e2 : roundErr (1 / 5) ≤ 1 / 2 ^ 55 := by
    unfold roundErr
    exact max_le (by norm_num) (one_div_le_one_div_of_le (by positivity) (pow_le_pow_right₀ (by norm_num) (by norm_num)))
  have r1 : Rounds cfg u (fun _ => none) [] (fun _ => none) (.num ['0'] (some ['1'])) (.scalar ⟨1 / 10, 1 / 2 ^ 56⟩) :=
    .weaken _ _ _ (n1 ▸ .num ['0'] (some ['1']) (by rw [n1]; linarith)) (.scalar e1)
  have r2 : Rounds cfg u (fun _ => none) [] (fun _ => none) (.num ['0'] (some ['2'])) (.scalar ⟨1 / 5, 1 / 2 ^ 55⟩) :=
    .weaken _ _ _ (n2 ▸ .num ['0'] (some ['2']) (by rw [n2]; linarith)) (.scalar e2)
  have hb : |(1 / 10 : ℝ) + 1 / 5| + (1 / 2 ^ 56 + 1 / 2 ^ 55) < overflow := by
    refine lt_trans ?_ big
    rw [abs_of_pos (by norm_num)]
    norm_num
  have r := Rounds.bin .add _ _ _ _ _ r1 r2 (.add (.scalar (.rounded _ _ _ _ hb)))
  obtain ⟨v, h1, h2⟩ := C67_formula cfg _ _ (.bin .add (.num ['0'] (some ['1'])) (.num ['0'] (some ['2']))) _
    ⟨⟨by decide, by simp, Or.inl (by decide)⟩, ⟨by decide, by simp, Or.inl (by decide)⟩, by decide, by decide, nofun⟩ r
    (⟨[], []⟩ : Context F) ⟨by simp [NoDupVars], nofun, nofun⟩
  cases v <;> simp only [NearV] at h2
  obtain ⟨q, h3, h4⟩ := h2
  refine ⟨_, q, h1, h3, ?_⟩
  simp only at h4
  rw [show (1 / 10 : ℝ) + 1 / 5 = 0.3 by norm_num] at h4
  refine h4.trans ?_
  rw [abs_of_pos (by norm_num)]
  norm_num

/-- `12*(x+4)-84/2` with `x = 3` is exactly `42`. -/
example (cfg : Cfg) : ∃ a : F, Finishes (fun n => quickEval cfg n "12*(x+4)-84/2".toList
    (⟨[⟨"x".toList, [.scalar (ofInt 3)]⟩], []⟩ : Context F)) (.ok [.scalar a]) ∧ Binary64.val a = some 42 := by
  have d : ∀ s : String, ∀ n : Nat, digitsNumber s.toList = n → Fits n →
      WholeEx (fun n => if n = "x".toList then some (.scalar 3) else none) (.num s.toList none) (.scalar n) := by
    intro s n h1 h2
    have := WholeEx.num (ρ := fun n => if n = "x".toList then some (.scalar 3) else none) s.toList
    rw [h1] at this
    exact this h2
  have hw : WholeEx (fun n => if n = "x".toList then some (.scalar 3) else none)
      (.bin .sub (.bin .mult (.num "12".toList none) (.paren (.bin .add (.var "x".toList) (.num "4".toList none))))
        (.bin .div (.num "84".toList none) (.num "2".toList none))) (.scalar 42) :=
    .sub _ _ 84 42 (.mult _ _ 12 7 (d "12" 12 (by decide) (by unfold Fits; decide)) (.paren _ _ (.add _ _ 3 4 (.var _ _ (by simp))
      (d "4" 4 (by decide) (by unfold Fits; decide)) (by unfold Fits; decide))) (by unfold Fits; decide))
      (.div _ _ 42 2 (d "84" 84 (by decide) (by unfold Fits; decide)) (d "2" 2 (by decide) (by unfold Fits; decide)) (by decide)
        (by unfold Fits; decide)) (by unfold Fits; decide)
  obtain ⟨v, h1, h2⟩ := C68_whole (F := F) (u := u) cfg _
    (.bin .sub (.bin .mult (.num "12".toList none) (.paren (.bin .add (.var "x".toList) (.num "4".toList none))))
        (.bin .div (.num "84".toList none) (.num "2".toList none))) _
    ⟨⟨wf_num (s := "12") (by decide), ⟨wf_name (n := "x") (by decide), wf_num (s := "4") (by decide), by decide, by decide, nofun⟩,
      by decide, by decide, nofun⟩,
      ⟨wf_num (s := "84") (by decide), wf_num (s := "2") (by decide), by decide, by decide, nofun⟩, by decide, by decide, nofun⟩ hw
    (⟨[⟨"x".toList, [.scalar (ofInt 3)]⟩], []⟩ : Context F) (by simp [NoDupVars]) (by
      intro x m hx
      split at hx
      · next h =>
        subst h
        cases hx
        exact ⟨_, rfl, val_int (by decide)⟩
      · cases hx)
  cases v <;> simp only [Stores] at h2
  exact ⟨_, h1, by exact_mod_cast h2⟩

end

/-- Such a type of numbers and such functions exist. -/
example : Libm Double (1 / 2 ^ 53) := inferInstance

end MUL
