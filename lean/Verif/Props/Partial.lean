import Verif.Spec.Partial
import Verif.Props.NewtonRoots
import Mathlib.Analysis.SpecialFunctions.Log.Deriv
/-!
# C88: formulas outside their domain
-/

namespace MUL
open Out Spec

set_option linter.unusedSectionVars false

section
variable {F : Type} [FNum F] [ExactReal F]

theorem one_op {cfg : Cfg} {op : SimpleOp} {l r : AST F} {ctx : Context F} {w : Str} {u v c : Value F}
    (hl : Finishes (fun n => evalRec cfg n l ctx w) (.ok [u])) (hr : Finishes (fun n => evalRec cfg n r ctx w) (.ok [v]))
    (h : opTable op u v = .ok [c]) : Finishes (fun n => evalRec cfg n (.simple op l r) ctx w) (.ok [c]) := by
  have := C19_results hl hr (fun _ => [c]) (by
    intro p hp
    simp only [pairs, List.map_cons, List.map_nil, List.flatMap_cons, List.flatMap_nil, List.append_nil, List.mem_singleton] at hp
    subst hp
    exact h)
  simpa [pairs] using this

theorem means_scalar {vs : List (Value F)} {x : ℝ} (h : List.Forall₂ Means vs [.scalar x]) :
    ∃ a : F, vs = [.scalar a] ∧ Exact.val a = some x := by
  obtain ⟨fs, rfl, h2⟩ := means_scalars (xs := [x]) h
  cases h2 with
  | cons h1 h2 => cases h2; exact ⟨_, rfl, h1⟩

theorem nan_val {a : F} (h : FArith.isNaN a = true) : Exact.val a = none := by
  have := Exact.finite_iff a
  rw [h, Bool.or_true] at this
  exact Option.isNone_iff_eq_none.1 this.symm

theorem inf_val {a : F} (h : FArith.isInf a = true) : Exact.val a = none := by
  have := Exact.finite_iff a
  rw [h, Bool.true_or] at this
  exact Option.isNone_iff_eq_none.1 this.symm

theorem add_map₂ {a b : F} {o p : Option ℝ} (ha : Exact.val a = o) (hb : Exact.val b = p) :
    Exact.val (FArith.add a b) = Option.map₂ (fun x y => x + y) o p := by
  subst ha hb
  cases ha : Exact.val a with
  | none => exact Exact.add_none (Or.inl ha)
  | some x =>
    cases hb : Exact.val b with
    | none => exact Exact.add_none (Or.inr hb)
    | some y => exact Exact.val_add ha hb

theorem mul_map₂ {a b : F} {o p : Option ℝ} (ha : Exact.val a = o) (hb : Exact.val b = p) :
    Exact.val (FArith.mul a b) = Option.map₂ (fun x y => x * y) o p := by
  subst ha hb
  cases ha : Exact.val a with
  | none => exact Exact.mul_none (Or.inl ha)
  | some x =>
    cases hb : Exact.val b with
    | none => exact Exact.mul_none (Or.inr hb)
    | some y => exact Exact.val_mul ha hb

theorem sub_map₂ {a b : F} {o p : Option ℝ} (ha : Exact.val a = o) (hb : Exact.val b = p) :
    Exact.val (FArith.add a (FArith.mul b (FArith.ofInt (-1)))) = Option.map₂ (fun x y => x - y) o p := by
  rw [add_map₂ ha (mul_map₂ hb (Exact.val_ofInt (-1)))]
  cases o <;> cases p <;> simp [sub_eq_add_neg]

/-- What is evaluated is the meaning. -/
theorem partly_eval {cfg : Cfg} (hprec : 3 ≤ cfg.prec) {φ : Defs} {cur : Str} {ρ : Env} {e : Ex} {o : Option ℝ}
    (h : Partly cfg φ cur ρ e o) {ctx : Context F} (hm : Models cfg ctx ρ φ) :
    ∃ a : F, Finishes (fun n => evalRec cfg n (e.tree cfg) ctx cur) (.ok [.scalar a]) ∧ Exact.val a = o := by
  induction h generalizing ctx with
  | value h =>
    obtain ⟨vs, h1, h2⟩ := denotes_eval hprec h hm
    obtain ⟨a, rfl, ha⟩ := means_scalar h2
    exact ⟨a, h1, ha⟩
  | paren _ ih =>
    obtain ⟨a, h1, h2⟩ := ih hm
    exact ⟨a, one_op h1 (scalar_rec cfg ctx _ (FArith.ofInt 0)) rfl, h2⟩
  | neg _ ih =>
    obtain ⟨a, h1, h2⟩ := ih hm
    refine ⟨_, one_op (scalar_rec cfg ctx _ (FArith.ofInt 0)) h1 rfl, ?_⟩
    rw [mul_map₂ (Exact.val_ofInt (-1)) h2]
    rename_i o _
    cases o <;> simp
  | add _ _ ihl ihr =>
    obtain ⟨a, h1, h2⟩ := ihl hm
    obtain ⟨b, h3, h4⟩ := ihr hm
    exact ⟨_, one_op h1 h3 rfl, add_map₂ h2 h4⟩
  | sub _ _ ihl ihr =>
    obtain ⟨a, h1, h2⟩ := ihl hm
    obtain ⟨b, h3, h4⟩ := ihr hm
    exact ⟨_, one_op h1 h3 rfl, sub_map₂ h2 h4⟩
  | mult _ _ ihl ihr =>
    obtain ⟨a, h1, h2⟩ := ihl hm
    obtain ⟨b, h3, h4⟩ := ihr hm
    exact ⟨_, one_op h1 h3 rfl, mul_map₂ h2 h4⟩
  | juxt _ _ ihl ihr =>
    obtain ⟨a, h1, h2⟩ := ihl hm
    obtain ⟨b, h3, h4⟩ := ihr hm
    exact ⟨_, one_op h1 h3 rfl, mul_map₂ h2 h4⟩
  | @div _ _ _ _ o y _ _ hy ihl ihr =>
    obtain ⟨a, h1, h2⟩ := ihl hm
    obtain ⟨b, h3, h4⟩ := ihr hm
    refine ⟨_, one_op h1 h3 rfl, ?_⟩
    cases o with
    | none => exact Exact.div_none (Or.inl h2)
    | some x => exact Exact.val_div h2 h4 hy
  | divZero _ _ ihl ihr =>
    obtain ⟨a, h1, h2⟩ := ihl hm
    obtain ⟨b, h3, h4⟩ := ihr hm
    exact ⟨_, one_op h1 h3 rfl, Exact.div_none (Or.inr h4)⟩
  | pow _ _ hp ihl ihr =>
    obtain ⟨a, h1, h2⟩ := ihl hm
    obtain ⟨b, h3, h4⟩ := ihr hm
    obtain ⟨us, h5, h6⟩ := op2_ok (F := F) (.pow hp) ⟨a, rfl, h2⟩ ⟨b, rfl, h4⟩
    obtain ⟨c, rfl, hc⟩ := means_scalar h6
    exact ⟨c, one_op h1 h3 h5, hc⟩
  | noPower _ _ hp ihl ihr =>
    obtain ⟨a, h1, h2⟩ := ihl hm
    obtain ⟨b, h3, h4⟩ := ihr hm
    refine ⟨_, one_op h1 h3 rfl, ?_⟩
    cases hp with
    | negative _ _ hx hy => exact nan_val (ExactReal.powf_neg h2 h4 hx hy)
    | zero _ hy => exact ExactReal.powf_zero h2 h4 hy
  | fn name op _ hf ih =>
    obtain ⟨a, h1, h2⟩ := ih hm
    obtain ⟨w, h3, h4⟩ := fn1_ok (F := F) hf ⟨a, rfl, h2⟩ (.scalar (FArith.ofInt 0))
    obtain ⟨c, rfl, hc⟩ := h4
    exact ⟨c, one_op h1 (scalar_rec cfg ctx _ (FArith.ofInt 0)) h3, hc⟩
  | outside name op _ hf ih =>
    obtain ⟨a, h1, h2⟩ := ih hm
    cases hf with
    | sqrt _ hx => exact ⟨_, one_op h1 (scalar_rec cfg ctx _ (FArith.ofInt 0)) rfl, nan_val (ExactReal.sqrt_neg h2 hx)⟩
    | ln _ hx =>
      refine ⟨_, one_op h1 (scalar_rec cfg ctx _ (FArith.ofInt 0)) rfl, ?_⟩
      rcases hx.lt_or_eq with hx | rfl
      · exact nan_val (ExactReal.ln_neg h2 hx)
      · exact inf_val (ExactReal.ln_zero h2)
    | arcsin _ hx => exact ⟨_, one_op h1 (scalar_rec cfg ctx _ (FArith.ofInt 0)) rfl, nan_val (ExactReal.asin_nan h2 hx)⟩
    | arccos _ hx => exact ⟨_, one_op h1 (scalar_rec cfg ctx _ (FArith.ofInt 0)) rfl, nan_val (ExactReal.acos_nan h2 hx)⟩
  | strict name op _ hop ih =>
    obtain ⟨a, h1, h2⟩ := ih hm
    rcases hop with rfl | rfl | rfl | rfl
    · exact ⟨_, one_op h1 (scalar_rec cfg ctx _ (FArith.ofInt 0)) rfl, by rw [ExactReal.val_sin, h2]; rfl⟩
    · exact ⟨_, one_op h1 (scalar_rec cfg ctx _ (FArith.ofInt 0)) rfl, by rw [ExactReal.val_cos, h2]; rfl⟩
    · by_cases hlt : FArith.lt a (FArith.ofInt 0) = true
      · exact ⟨FArith.mul a (FArith.ofInt (-1)), one_op h1 (scalar_rec cfg ctx _ (FArith.ofInt 0)) (by
          simp only [opTable, vAbs, if_pos hlt, ok_bind]), Exact.mul_none (Or.inl h2)⟩
      · exact ⟨a, one_op h1 (scalar_rec cfg ctx _ (FArith.ofInt 0)) (by
          simp only [opTable, vAbs, if_neg hlt, ok_bind]), h2⟩
    · exact ⟨_, one_op h1 (scalar_rec cfg ctx _ (FArith.ofInt 0)) rfl, ExactReal.sqrt_none h2⟩
  | call f args params body xs o hlen hf hne hp hl hargs _ ih =>
    obtain ⟨as, h1, h2⟩ := collect (P := fun e (a : F) => Finishes (fun n => evalRec cfg n (e.tree cfg) ctx _) (.ok [.scalar a]))
      (Q := fun a x => Exact.val a = some x) hlen fun i hi => by
        obtain ⟨vs, k1, k2⟩ := denotes_eval hprec (hargs i hi) hm
        obtain ⟨a, rfl, ha⟩ := means_scalar k2
        exact ⟨a, k1, ha⟩
    have hmeans : List.Forall₂ Means (as.map Value.scalar) (xs.map Obj.scalar) := by
      rw [List.forall₂_map_left_iff, List.forall₂_map_right_iff]
      exact h2.imp fun a u h => ⟨a, rfl, h⟩
    obtain ⟨b, h3, h4⟩ := ih (hm.call hp hmeans)
    refine ⟨b, ?_, h4⟩
    have := call_finishes (args := args.map fun e => e.tree cfg) (vals := (as.map Value.scalar).map fun v => [v]) (vss := [[.scalar b]])
      (hm.funs f params body hf) hne (by simpa using hl)
      (by rw [List.forall₂_map_left_iff, List.forall₂_map_right_iff, List.forall₂_map_right_iff]; exact h1)
      (by rw [choices_singletons]; exact .cons h3 .nil)
    simpa only [Ex.tree, treeAll_eq, List.flatten_cons, List.flatten_nil, List.append_nil] using this

variable [UTable] {cfg : Cfg} {ctx : Context F} {φ : Defs} {ρ : Env} {le re : Ex} {x : Str} {g k : ℝ → Option ℝ}

/-- **C88.** A formula has one result and no error is reported, also outside its domain: the result is the number the formula stands
for, or it is infinite or not a number exactly if the formula is undefined. -/
theorem C88_formula (cfg : Cfg) (hprec : 3 ≤ cfg.prec) (φ : Defs) (ρ : Env) (e : Ex) (o : Option ℝ) (hwf : e.WF)
    (h : Partly cfg φ [] ρ e o) (ctx : Context F) (hm : Models cfg ctx ρ φ) :
    ∃ a : F, Finishes (fun n => quickEval cfg n e.text ctx) (.ok [.scalar a]) ∧ (∀ x, o = some x → Exact.val a = some x) ∧
      (o = none ↔ (FArith.isInf a = true ∨ FArith.isNaN a = true)) := by
  obtain ⟨a, h1, h2⟩ := partly_eval hprec h hm
  refine ⟨a, ((C29_eval cfg e.text ctx (C09_parse_text (F := F) cfg e hwf)).1 _).1 h1, fun x hx => by rw [h2, hx], ?_⟩
  rw [← Bool.or_eq_true, Exact.finite_iff, h2, Option.isNone_iff_eq_none]

/-- The difference of the sides as a function of `x`. -/
theorem functionOf_partly (hprec : 3 ≤ cfg.prec) (hl : ∀ u, Partly cfg φ [] (ρ.set x [.scalar u]) le (g u))
    (hr : ∀ u, Partly cfg φ [] (ρ.set x [.scalar u]) re (k u)) (hm : Models cfg ctx ρ φ) :
    FunctionOf cfg ctx x (residualExpr (le.tree cfg, re.tree cfg)) fun u => Option.map₂ (fun y z => y - z) (g u) (k u) := by
  intro a u ha
  obtain ⟨b, h1, h2⟩ := partly_eval hprec (hl u) (hm.set x ha)
  obtain ⟨c, h3, h4⟩ := partly_eval hprec (hr u) (hm.set x ha)
  exact ⟨_, [], one_op h1 h3 rfl, sub_map₂ h2 h4⟩

theorem map₂_opp (o p : Option ℝ) : (Option.map₂ (fun y z : ℝ => y - z) o p).map (fun y => -y) = Option.map₂ (fun y z => y - z) p o := by
  cases o <;> cases p <;> simp

/-- **C88.** Equations whose sides are not everywhere defined: `eq(l=r,x)` returns what the procedure of C64 finds for the difference of the
sides, which is undefined where one of them is. -/
theorem C88_equation (hprec : 3 ≤ cfg.prec) (hwf : (Ex.eqs [le] [re] [x]).WF) (hx : ρ x = none)
    (hl : ∀ u, Partly cfg φ [] (ρ.set x [.scalar u]) le (g u)) (hr : ∀ u, Partly cfg φ [] (ρ.set x [.scalar u]) re (k u))
    (hm : Models cfg ctx ρ φ) :
    ∃ vs : List F, Finishes (fun n => quickEval cfg n (Ex.eqs [le] [re] [x]).text ctx) (.ok (vs.map .scalar)) ∧
      vs.map Exact.val = (reported (cfg.prec - 2)
        (found (fun u => Option.map₂ (fun y z => y - z) (g u) (k u)) (10 ^ (-(cfg.prec : Int))))).map some := by
  have hfresh := fresh_of_absent (hm.absent x hx)
  have h1 := functionOf_partly hprec hl hr hm
  have h2 := functionOf_partly hprec hr hl hm
  have hparse := C29_eval cfg _ ctx (C09_parse_text (F := F) cfg _ hwf)
  simp only [Ex.tree, treeAll, textAll, List.zip_cons_cons, List.zip_nil_left, List.zipWith_cons_cons, List.zipWith_nil_left] at hparse
  split at hparse
  · obtain ⟨vs, h3, h4⟩ := C64_procedure hfresh h1
    exact ⟨vs, (hparse.1 _).1 h3, h4⟩
  · obtain ⟨vs, h3, h4⟩ := C64_procedure hfresh h2
    refine ⟨vs, (hparse.1 _).1 h3, ?_⟩
    rw [← found_opp]
    simp only [map₂_opp]
    exact h4

/-- **C88** with C87: which solutions are found, from the text. -/
theorem C88_found {d : ℝ → ℝ} {f : ℝ → Option ℝ} {s m : ℝ} (hprec : 3 ≤ cfg.prec) (hwf : (Ex.eqs [le] [re] [x]).WF) (hx : ρ x = none)
    (hl : ∀ u, Partly cfg φ [] (ρ.set x [.scalar u]) le (g u)) (hr : ∀ u, Partly cfg φ [] (ρ.set x [.scalar u]) re (k u))
    (hmod : Models cfg ctx ρ φ)
    (hf : (∀ u, f u = Option.map₂ (fun y z => y - z) (g u) (k u)) ∨ ∀ u, f u = Option.map₂ (fun y z => y - z) (k u) (g u))
    (hm : 0 < m) (hbig : m ≤ 10 ^ (-(cfg.prec : Int)) * 10 ^ 20) (h0 : d s = 0)
    (ht : Tame f d s m (10 ^ (-(cfg.prec : Int)))) (h1 : -1000 ≤ s) (h2 : s ≤ 999) :
    ∃ vs : List F, Finishes (fun n => quickEval cfg n (Ex.eqs [le] [re] [x]).text ctx) (.ok (vs.map .scalar)) ∧
      ((∃ v ∈ vs, ∃ y : ℝ, Exact.val v = some y ∧ |y - s| < 10 ^ (-(cfg.prec : Int)) / m + 10 ^ (-((cfg.prec - 2 : Nat) : Int))) ∨
       (vs.length = 10 ∧ ∀ v ∈ vs, ∃ y : ℝ, Exact.val v = some y ∧
          |y| < |s| + 10 ^ (-(cfg.prec : Int)) / m + 10 ^ (-((cfg.prec - 2 : Nat) : Int)))) := by
  obtain ⟨vs, e1, e2⟩ := C88_equation hprec hwf hx hl hr hmod
  refine ⟨vs, e1, ?_⟩
  rcases hf with hf | hf
  · rw [← funext hf] at e2
    exact found_values e2 hm hbig h0 ht h1 h2
  · rw [← found_opp] at e2
    simp only [map₂_opp] at e2
    rw [← funext hf] at e2
    exact found_values e2 hm hbig h0 ht h1 h2

/-- **C88** with C87: only one solution. If the difference `f` of the sides is smaller than `10^-PREC` only within a distance `δ ≤ 20·10^-PREC` of
`s`, and `s` is found, there are one or two results, all of them that near to `s`, and exactly one, which rounds to `s`, if `s` has no more than
`PREC-2` decimals. -/
theorem C88_unique {d : ℝ → ℝ} {f : ℝ → Option ℝ} {s m δ : ℝ} (hprec : 3 ≤ cfg.prec) (hwf : (Ex.eqs [le] [re] [x]).WF) (hx : ρ x = none)
    (hl : ∀ u, Partly cfg φ [] (ρ.set x [.scalar u]) le (g u)) (hr : ∀ u, Partly cfg φ [] (ρ.set x [.scalar u]) re (k u))
    (hmod : Models cfg ctx ρ φ)
    (hf : (∀ u, f u = Option.map₂ (fun y z => y - z) (g u) (k u)) ∨ ∀ u, f u = Option.map₂ (fun y z => y - z) (k u) (g u))
    (hm : 0 < m) (hbig : m ≤ 10 ^ (-(cfg.prec : Int)) * 10 ^ 20) (h0 : d s = 0)
    (ht : Tame f d s m (10 ^ (-(cfg.prec : Int)))) (h1 : -1000 ≤ s) (h2 : s ≤ 999)
    (hδ : δ ≤ 20 * 10 ^ (-(cfg.prec : Int))) (hnear : ∀ u y, f u = some y → |y| < 10 ^ (-(cfg.prec : Int)) → |u - s| < δ) :
    ∃ vs : List F, Finishes (fun n => quickEval cfg n (Ex.eqs [le] [re] [x]).text ctx) (.ok (vs.map .scalar)) ∧
      1 ≤ vs.length ∧ vs.length ≤ 2 ∧ (∀ v ∈ vs, ∃ y : ℝ, Exact.val v = some y ∧ |y - s| < δ) ∧
      ∀ N : Int, s * 10 ^ (cfg.prec - 2) = N → ∃ v, vs = [v] ∧ IsScalar ((Value.scalar v).round (cfg.prec - 2)) s := by
  obtain ⟨vs, e1, e2⟩ := C88_equation hprec hwf hx hl hr hmod
  replace e2 : vs.map Exact.val = (reported (cfg.prec - 2) (found f (10 ^ (-(cfg.prec : Int))))).map some := by
    rcases hf with hf | hf
    · rw [← funext hf] at e2
      exact e2
    · rw [← found_opp] at e2
      simp only [map₂_opp] at e2
      rw [← funext hf] at e2
      exact e2
  have hh : (0 : ℝ) < 10 ^ (-(cfg.prec : Int)) := by positivity
  obtain ⟨y, hy, -⟩ := tame_found hh hm hbig h0 ht h1 h2
  obtain ⟨w1, w2⟩ := mem_values e2
  have hclose : ∀ z ∈ found f (10 ^ (-(cfg.prec : Int))), |z - s| < δ := by
    intro z hz
    obtain ⟨v, hv, hv'⟩ := found_small hz
    exact hnear z v hv hv'
  have hunit := unit_step (cfg := cfg) (by omega)
  have hpow : (0 : ℝ) < 10 ^ (cfg.prec - 2) := by positivity
  have hfifth : ∀ z : ℝ, |z - s| < δ → |z - s| * 10 ^ (cfg.prec - 2) < 1 / 5 := by
    intro z hz
    calc |z - s| * 10 ^ (cfg.prec - 2) < 20 * 10 ^ (-(cfg.prec : Int)) * 10 ^ (cfg.prec - 2) :=
          mul_lt_mul_of_pos_right (by linarith) hpow
      _ = 20 * (10 ^ (cfg.prec - 2) * 10 ^ (-(cfg.prec : Int))) := by ring
      _ = 1 / 5 := by rw [hunit]; norm_num
  obtain ⟨k1, k2, k3⟩ := reported_near (s := s) (p := cfg.prec - 2) (List.ne_nil_of_mem hy) fun z hz => hfifth z (hclose z hz)
  have hlen : vs.length = (reported (cfg.prec - 2) (found f (10 ^ (-(cfg.prec : Int))))).length := by
    have := congrArg List.length e2
    rw [List.length_map, List.length_map] at this
    exact this
  have hvals : ∀ v ∈ vs, ∃ y : ℝ, Exact.val v = some y ∧ |y - s| < δ := by
    intro v hv
    obtain ⟨u, hu, hu'⟩ := w2 v hv
    exact ⟨u, hu', hclose u (reported_mem hu)⟩
  refine ⟨vs, e1, by omega, by omega, hvals, ?_⟩
  intro N hN
  have h1' : vs.length = 1 := by rw [hlen]; exact k3 N hN
  obtain ⟨v, rfl⟩ := List.length_eq_one_iff.1 h1'
  refine ⟨v, rfl, ?_⟩
  obtain ⟨z, hz, hz'⟩ := hvals v (by simp)
  refine ⟨_, rfl, ?_⟩
  have hr : roundAway (z * 10 ^ (cfg.prec - 2)) = N := by
    apply round_near
    rw [← hN, ← sub_mul, abs_mul, abs_of_pos hpow]
    have := hfifth z hz'
    linarith
  rw [asI32_small cfg.small_two, roundScalar_val _ hz, hr, ← hN, mul_div_cancel_right₀ _ hpow.ne']

/-- The search runs away. -/
theorem reciprocal_runs {a h : ℝ} (ha : 3 ≤ a) (hh : 0 < h) (hh1 : h ≤ 1 / 1000) (n : Nat) (u : ℝ) (hu : u ≤ -1 ∨ ∃ j : Int, u = j) :
    newtonFrom (fun u => if u = 0 then none else some (1 / u - a)) h n u = none := by
  induction n generalizing u with
  | zero => rfl
  | succ n ih =>
    by_cases h0 : u = 0
    · rw [newtonFrom]
      simp only [if_pos h0]
    by_cases h1 : u + h = 0
    · rw [newtonFrom]
      simp only [if_neg h0, if_pos h1]
      rw [if_neg]
      have : u = -h := by linarith
      rw [this, not_lt, abs_of_neg (by have : 1 / -h < 0 := by apply div_neg_of_pos_of_neg <;> linarith
                                       linarith)]
      have : 1 / -h < 0 := by apply div_neg_of_pos_of_neg <;> linarith
      linarith
    have hsize : h ≤ |1 / u - a| := by
      rcases lt_or_ge u 0 with hneg | hpos
      · have : 1 / u < 0 := div_neg_of_pos_of_neg one_pos hneg
        rw [abs_of_neg (by linarith)]
        linarith
      · rcases hu with hu | ⟨j, hj⟩
        · linarith
        · have hj1 : (1 : ℝ) ≤ u := by
            rw [hj] at h0 hpos ⊢
            have : 0 ≤ j := by exact_mod_cast hpos
            have : j ≠ 0 := by exact_mod_cast h0
            exact_mod_cast (by omega : 1 ≤ j)
          have : 1 / u ≤ 1 := by rw [div_le_one (by linarith)]; exact hj1
          rw [abs_of_neg (by linarith)]
          linarith
    rw [newtonFrom]
    simp only [if_neg h0, if_neg h1, if_neg (not_lt.2 hsize)]
    have hne : 1 / (u + h) - a ≠ 1 / u - a := by
      intro hc
      have : 1 / (u + h) = 1 / u := by linarith
      rw [div_eq_div_iff h1 h0] at this
      linarith
    rw [if_neg hne]
    apply ih
    left
    have hstep : u - (1 / u - a) * h / (1 / (u + h) - a - (1 / u - a)) = 2 * u + h - a * u * (u + h) := by
      have : 1 / (u + h) - a - (1 / u - a) = -h / (u * (u + h)) := by
        field_simp
        ring
      rw [this]
      field_simp
      ring
    rw [hstep]
    rcases lt_or_ge u 0 with hneg | hpos
    · have hu1 : u ≤ -1 := by
        rcases hu with hu | ⟨j, rfl⟩
        · exact hu
        · have : j < 0 := by exact_mod_cast hneg
          exact_mod_cast (by omega : j ≤ -1)
      have : 0 < u * (u + h) := mul_pos_of_neg_of_neg hneg (by linarith)
      nlinarith
    · rcases hu with hu | ⟨j, hj⟩
      · linarith
      · have hj1 : (1 : ℝ) ≤ u := by
          rw [hj] at h0 hpos ⊢
          have : 0 ≤ j := by exact_mod_cast hpos
          have : j ≠ 0 := by exact_mod_cast h0
          exact_mod_cast (by omega : 1 ≤ j)
        have : u ≤ u * (u + h) := by nlinarith
        nlinarith [mul_le_mul_of_nonneg_right ha (by nlinarith : 0 ≤ u * (u + h)), mul_nonneg (by linarith : 0 ≤ u - 1) (by linarith : 0 ≤ u)]

/-- **C88**: solutions may be missed. `1/x=c` has the solution `1/c`, but for every `c` from 3 on the result of `eq(1/x=c,x)` is empty. -/
theorem C88_reciprocal_missed {c : ℝ} (hprec : 3 ≤ cfg.prec)
    (hwf : (Ex.eqs [.bin .div (.num ['1'] none) (.var x)] [re] [x]).WF) (hx : ρ x = none) (hc : 3 ≤ c)
    (hr : ∀ u, Denotes cfg φ [] (ρ.set x [.scalar u]) re [.scalar c]) (hmod : Models cfg ctx ρ φ) :
    Finishes (fun n => quickEval cfg n (Ex.eqs [.bin .div (.num ['1'] none) (.var x)] [re] [x]).text ctx) (.ok []) := by
  have hside : ∀ u, Partly cfg φ [] (ρ.set x [.scalar u]) (.bin .div (.num ['1'] none) (.var x)) (if u = 0 then none else some (1 / u)) := by
    intro u
    have h1 : Partly cfg φ [] (ρ.set x [.scalar u]) (.num ['1'] none) (some 1) := .value (denotes_digit '1' 1 1 rfl (by norm_num))
    have h2 : Partly cfg φ [] (ρ.set x [.scalar u]) (.var x) (some u) := .value (.var _ _ (by simp [Env.set]))
    split
    · next h =>
      subst h
      exact .divZero h1 h2
    · next h => exact .div h1 h2 h
  obtain ⟨vs, e1, e2⟩ := C88_equation (g := fun u => if u = 0 then none else some (1 / u)) (k := fun _ => some c) hprec hwf hx hside
    (fun u => .value (hr u)) hmod
  have hnil : found (fun u => Option.map₂ (fun y z : ℝ => y - z) (if u = 0 then none else some (1 / u)) (some c)) (10 ^ (-(cfg.prec : Int))) = [] := by
    have : (fun u : ℝ => Option.map₂ (fun y z : ℝ => y - z) (if u = 0 then none else some (1 / u)) (some c)) =
        fun u => if u = 0 then none else some (1 / u - c) := by
      funext u
      split <;> rfl
    rw [this, List.eq_nil_iff_forall_not_mem]
    intro u hu
    unfold found at hu
    obtain ⟨k, -, hk⟩ := List.mem_filterMap.1 hu
    have hh1 : (10 : ℝ) ^ (-(cfg.prec : Int)) ≤ 10 ^ (-(3 : Int)) := zpow_le_zpow_right₀ (by norm_num) (by omega)
    rw [reciprocal_runs hc (by positivity) (hh1.trans (by norm_num)) 1000 _ (Or.inr ⟨(k : Int) - 1000, by push_cast; rfl⟩)] at hk
    cases hk
  rw [hnil] at e2
  have : vs = [] := by simpa [reported, distinct] using e2
  subst this
  exact e1

/-! ## Examples -/

/-- `1+sqrt(-4)` is infinite or not a number. -/
example (cfg : Cfg) (hprec : 3 ≤ cfg.prec) :
    ∃ a : F, Finishes (fun n => quickEval cfg n "1+sqrt(-4)".toList Context.default) (.ok [.scalar a]) ∧
      (FArith.isInf a = true ∨ FArith.isNaN a = true) := by
  have htext : "1+sqrt(-4)".toList = (Ex.bin .add (.num ['1'] none) (.fn "sqrt".toList .sqrt (.neg (.num ['4'] none)))).text := by decide
  rw [htext]
  refine (C88_formula (F := F) cfg hprec (fun _ => none) _ _ none ?_ ?_ _ (C60_constants (F := F) cfg).1).imp fun a h => ⟨h.1, h.2.2.1 rfl⟩
  · exact ⟨wf_num (s := "1") (by decide), ⟨by decide, wf_num (s := "4") (by decide), by decide⟩, by decide, by decide, nofun⟩
  · exact .add (.value (denotes_digit '1' 1 1 rfl (by norm_num)))
      (.outside _ _ (.neg (.value (denotes_digit '4' 4 4 rfl (by norm_num)))) (.sqrt _ (by norm_num)))

/-- `eq(1/x=4,x)` finds nothing. -/
example (cfg : Cfg) (hprec : 3 ≤ cfg.prec) :
    Finishes (fun n => quickEval cfg n "eq(1/x=4,x)".toList (Context.default : Context F)) (.ok []) := by
  have htext : "eq(1/x=4,x)".toList = (Ex.eqs [.bin .div (.num ['1'] none) (.var ['x'])] [.num ['4'] none] [['x']]).text := by decide
  rw [htext]
  refine C88_reciprocal_missed (c := 4) hprec ?_ ?_ (by norm_num) ?_ (C60_constants (F := F) cfg).1
  · refine ⟨rfl, ⟨⟨wf_num (s := "1") (by decide), wf_name (n := "x") (by decide), by decide, by decide, nofun⟩, trivial⟩,
      ⟨wf_num (s := "4") (by decide), trivial⟩, Or.inl (by simp), by decide, ?_⟩
    intro v hv
    simp only [List.mem_singleton] at hv
    subst hv
    exact nameShape_letters (by decide) (by decide)
  · simp
  · intro u
    exact denotes_digit '4' 4 4 rfl (by norm_num)

/-- `eq(ln(x)=0,x)`: one result, which rounds to 1. -/
example (cfg : Cfg) (hprec : 3 ≤ cfg.prec) (hprec' : cfg.prec ≤ 19) :
    ∃ v : F, Finishes (fun n => quickEval cfg n "eq(ln(x)=0,x)".toList Context.default) (.ok [.scalar v]) ∧
      IsScalar ((Value.scalar v).round (cfg.prec - 2)) (1 : ℝ) := by
  have htext : "eq(ln(x)=0,x)".toList = (Ex.eqs [.fn "ln".toList .ln (.var ['x'])] [.num ['0'] none] [['x']]).text := by decide
  rw [htext]
  have hh : (0 : ℝ) < 10 ^ (-(cfg.prec : Int)) := by positivity
  have hh1 : (10 : ℝ) ^ (-(cfg.prec : Int)) ≤ 10 ^ (-(3 : Int)) := zpow_le_zpow_right₀ (by norm_num) (by omega)
  have hh2 : (10 : ℝ) ^ (-(19 : Int)) ≤ 10 ^ (-(cfg.prec : Int)) := zpow_le_zpow_right₀ (by norm_num) (by omega)
  norm_num only at hh1 hh2
  have hfloor : ((⌊(1 : ℝ)⌋ : Int) : ℝ) = 1 := by norm_num
  generalize hgen : (10 : ℝ) ^ (-(cfg.prec : Int)) = h at hh hh1 hh2
  have hslope : ∀ a b, 9 / 10 ≤ a → b ≤ 11 / 10 → Slopes Real.log a b (9 / 10) (10 / 9) := by
    intro a b ha hb
    refine C87_slopes_of_deriv (g' := fun u => u⁻¹) (fun u hu _ => Real.hasDerivAt_log (by linarith)) (fun u hu hu' => ?_) (fun u hu hu' => ?_)
    · rw [le_inv_comm₀ (by norm_num) (by linarith)]
      linarith
    · rw [inv_le_comm₀ (by linarith) (by norm_num)]
      linarith
  have hdef : DefinedOn (fun u : ℝ => Option.map₂ (fun y z : ℝ => y - z) (if 0 < u then some (Real.log u) else none) (some 0)) Real.log (min 1 (1 - h)) (1 + 2 * h) := by
    intro u hu hu'
    rw [min_eq_right (by linarith)] at hu
    simp only [if_pos (by linarith : 0 < u), Option.map₂_some_some, sub_zero]
  refine (C88_unique (F := F) (g := fun u => if 0 < u then some (Real.log u) else none) (k := fun _ => some 0) (d := Real.log)
    (s := 1) (m := 9 / 10) (δ := 20 * h) hprec ?_ ?_ ?_ ?_ (C60_constants (F := F) cfg).1 (Or.inl fun u => rfl) (by norm_num) ?_ Real.log_one
    (by
      rw [hgen]
      refine .concave (9 / 10) (by rw [hfloor]; exact hdef) ?_ ?_ (by norm_num) ?_
      · rw [hfloor, Set.Icc_self]
        exact ⟨convex_singleton _, fun u hu v hv a b _ _ hab => by
          rw [Set.mem_singleton_iff.1 hu, Set.mem_singleton_iff.1 hv]
          simp only [Real.log_one, smul_eq_mul, mul_one, mul_zero, add_zero, hab, le_refl]⟩
      · rw [hfloor]
        intro u v h1 h2 h3
        obtain ⟨k1, k2⟩ := hslope u v (by rw [min_eq_right (by linarith)] at h1; linarith) (by linarith) u v le_rfl h2 le_rfl
        exact ⟨k1, k2.trans (mul_le_mul_of_nonneg_right (by norm_num) (by linarith))⟩
      · intro u v h1 h2 h3
        obtain ⟨k1, k2⟩ := hslope u v (by linarith) (by linarith) u v le_rfl h2 le_rfl
        exact ⟨k1, k2.trans (mul_le_mul_of_nonneg_right (by norm_num) (by linarith))⟩)
    (by norm_num) (by norm_num) (by rw [hgen]) ?_).elim fun vs h => by
      obtain ⟨v, rfl, hv⟩ := h.2.2.2.2 (1 * 10 ^ (cfg.prec - 2)) (by push_cast; rfl)
      exact ⟨v, h.1, hv⟩
  · refine ⟨rfl, ⟨⟨by decide, wf_name (n := "x") (by decide)⟩, trivial⟩,
      ⟨wf_num (s := "0") (by decide), trivial⟩, Or.inl (by simp), by decide, ?_⟩
    intro v hv
    simp only [List.mem_singleton] at hv
    subst hv
    exact nameShape_letters (by decide) (by decide)
  · simp
  · intro u
    have h2 : ∀ ρ : Env, Partly cfg (fun _ => none) [] (ρ.set ['x'] [.scalar u]) (.var ['x']) (some u) := fun ρ => .value (.var _ _ (by simp [Env.set]))
    beta_reduce
    split
    · next h => exact .fn _ _ (h2 _) (.ln u h)
    · next h => exact .outside _ _ (h2 _) (.ln u (not_lt.1 h))
  · intro u
    exact .value (denotes_digit '0' 0 0 rfl (by norm_num))
  · rw [hgen]
    linarith
  · rw [hgen]
    intro u y hu hy
    by_cases hpos : 0 < u
    · simp only [if_pos hpos, Option.map₂_some_some, sub_zero, Option.some.injEq] at hu
      subst hu
      rw [abs_lt] at hy
      have hlow : 1 - h < u := by
        have := Real.add_one_le_exp (-h)
        have h3 : Real.exp (-h) < u := (Real.lt_log_iff_exp_lt hpos).1 hy.1
        linarith
      have hup : u < 1 + 20 * h := by
        have h3 : u < Real.exp h := (Real.log_lt_iff_lt_exp hpos).1 hy.2
        have h4 := Real.add_one_le_exp (-h)
        rw [Real.exp_neg] at h4
        have h5 : Real.exp h * (1 - h) ≤ 1 := by
          have := Real.exp_pos h
          calc Real.exp h * (1 - h) ≤ Real.exp h * (Real.exp h)⁻¹ := mul_le_mul_of_nonneg_left (by linarith) this.le
            _ = 1 := mul_inv_cancel₀ this.ne'
        nlinarith
      rw [abs_lt]
      constructor <;> linarith
    · simp [if_neg hpos] at hu

end
end MUL
