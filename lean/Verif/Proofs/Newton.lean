import Verif.Spec.Newton
import Verif.Props.Linear
/-!
# Solving one equation for one variable
-/

namespace MUL
open Out Spec FArith

set_option linter.unusedSectionVars false

section
variable {F : Type} [FNum F] [ExactReal F]
variable {cfg : Cfg} {ctx : Context F} {x : Str} {e : AST F} {f : ℝ → Option ℝ}

/-- Holds for all large budgets. -/
def Eventually (p : Nat → Prop) : Prop := ∃ n, ∀ m, n ≤ m → p m

theorem Eventually.and {p q : Nat → Prop} (hp : Eventually p) (hq : Eventually q) : Eventually fun n => p n ∧ q n := by
  obtain ⟨a, ha⟩ := hp
  obtain ⟨b, hb⟩ := hq
  exact ⟨max a b, fun m hm => ⟨ha m (le_trans (le_max_left _ _) hm), hb m (le_trans (le_max_right _ _) hm)⟩⟩

theorem Eventually.mono {p q : Nat → Prop} (hp : Eventually p) (h : ∀ n, p n → q n) : Eventually q :=
  hp.imp fun _ ha m hm => h m (ha m hm)

theorem Eventually.ge (k : Nat) : Eventually fun n => k ≤ n := ⟨k, fun _ h => h⟩

theorem normSmall_one {r : F} {y : ℝ} (h : Exact.val r = some y) :
    normSmall cfg [r] = decide (|y| < 10 ^ (-(cfg.prec : Int))) := by
  have heps := val_stepH (F := F) (K := ℝ) cfg
  have hneg : Exact.val (FArith.neg (stepH F cfg)) = some (-(10 : ℝ) ^ (-(cfg.prec : Int))) := by
    rw [Exact.val_neg, heps]
    rfl
  have hz : Exact.val (FArith.ofInt 0 : F) = some (0 : ℝ) := by simpa using Exact.val_ofInt (F := F) (K := ℝ) 0
  have hn : Exact.val (norm [r]) = some |y| := by
    unfold norm
    have h2 := Exact.val_add hz (Exact.val_powi (n := 2) h (Or.inl (by norm_num)))
    show Exact.val (FElem.sqrt (FArith.add (FArith.ofInt 0) (FArith.powi r 2))) = _
    rw [ExactReal.val_sqrt h2 (by rw [zero_add]; exact_mod_cast sq_nonneg y), zero_add]
    rw [← Real.sqrt_sq_eq_abs]
    norm_cast
  have hpos : (0 : ℝ) < 10 ^ (-(cfg.prec : Int)) := zpow_pos (by norm_num) _
  unfold normSmall
  show (FArith.lt (FArith.neg (stepH F cfg)) (norm [r]) && FArith.lt (norm [r]) (stepH F cfg)) = _
  rw [Exact.lt_val hneg hn, Exact.lt_val hn heps]
  have : -(10 : ℝ) ^ (-(cfg.prec : Int)) < |y| := lt_of_lt_of_le (by linarith) (abs_nonneg y)
  rw [decide_eq_true this, Bool.true_and]

theorem normSmall_none {r : F} (h : Exact.val r = none) : normSmall cfg [r] = false := by
  by_contra hc
  obtain ⟨y, hy, _⟩ := normSmall_lt (by simpa using hc) r (by simp)
  rw [h] at hy
  cases hy

omit [ExactReal F] in
/-- The elimination for one equation divides. -/
theorem gauss_one (d b : F) : gaussAlgorithm [[d, b]] = .ok (.vector [FArith.div b d]) := by
  rfl

/-- The step of the iteration in terms of numbers of the library. -/
def stepOf (cfg : Cfg) (a y y' : F) : F :=
  FArith.add (FArith.div (FArith.mul (FArith.ofInt (-1)) y)
    (FArith.div (FArith.add y' (FArith.mul y (FArith.ofInt (-1)))) (stepH F cfg))) a

omit [ExactReal F] in
theorem dropVar_fresh (hfresh : ∀ v ∈ ctx.vars, v.name ≠ x) : dropVar (⟨ctx.vars ++ [], ctx.funs⟩ : Context F) x = ctx := by
  unfold dropVar
  rw [if_neg]
  · simp
  · simp only [List.append_nil, List.any_eq_true, beq_iff_eq, not_exists, not_and]
    exact hfresh

omit [ExactReal F] in
theorem jacobi_one (hfresh : ∀ v ∈ ctx.vars, v.name ≠ x) (n : Nat) (a y y' : F) (rest : List (Value F))
    (h : eval cfg (n + 4) e (ctx.addVar ⟨x, [.scalar (FArith.add a (stepH F cfg))]⟩) = .ok (.scalar y' :: rest)) :
    jacobiAndGauss cfg (eval cfg (n + 4)) [e] [⟨x, [.scalar a]⟩] ctx [y] = .ok [⟨x, [.scalar (stepOf cfg a y y')]⟩] := by
  unfold jacobiAndGauss
  have hjac : (calculateDerivativeNewton cfg (eval cfg (n + 4)) e x (.scalar a) (some (.scalar y)) ⟨ctx.vars ++ [], ctx.funs⟩)
      = .ok (.scalar (FArith.div (FArith.add y' (FArith.mul y (FArith.ofInt (-1)))) (stepH F cfg))) := by
    simp only [calculateDerivativeNewton, ok_bind]
    rw [dropVar_fresh hfresh]
    rw [show FArith.powi (FArith.ofInt 10) (-(cfg.prec : Int)) = stepH F cfg from rfl, h, ok_bind]
    simp only [List.getElem?_cons_zero, Out.unwrap, ok_bind]
    unfold eval
    rw [diffQuotient_eval]
    rfl
  have hoth : ((List.range [(⟨x, [.scalar a]⟩ : Variable F)].length).filter fun k => 0 != k).filterMap (fun k => [(⟨x, [.scalar a]⟩ : Variable F)][k]?) = [] := rfl
  have hr1 : List.range [e].length = [0] := rfl
  have hr2 : List.range [(⟨x, [.scalar a]⟩ : Variable F)].length = [0] := rfl
  simp only [hr1, hr2, mapM_single, idx, List.getElem?_cons_zero, ok_bind, Out.unwrap]
  have hoth' : (([0] : List Nat).filter fun k => 0 != k).filterMap (fun k => [(⟨x, [.scalar a]⟩ : Variable F)][k]?) = [] := rfl
  rw [hoth', hjac]
  rfl

omit [ExactReal F] in
theorem newton_one (hfresh : ∀ v ∈ ctx.vars, v.name ≠ x) (n : Nat) (a y y' : F) (rest rest' : List (Value F))
    (h : eval cfg (n + 4) e (ctx.addVar ⟨x, [.scalar a]⟩) = .ok (.scalar y :: rest))
    (h' : eval cfg (n + 4) e (ctx.addVar ⟨x, [.scalar (FArith.add a (stepH F cfg))]⟩) = .ok (.scalar y' :: rest')) :
    newton cfg (eval cfg (n + 4)) [e] [] [⟨x, [.scalar a]⟩] ctx =
      (if normSmall cfg [y] then .ok (.finishedX [⟨x, [.scalar a]⟩])
        else if (Value.scalar (stepOf cfg a y y')).isInfOrNan then .err .naNOrInf
        else .ok (.nextX [⟨x, [.scalar (stepOf cfg a y y')]⟩]), ctx) := by
  have hinv : Inv ctx [x] ctx := Inv.refl (by simpa using hfresh)
  have i1 : Inv ctx [x] (addVars ctx [⟨x, [.scalar a]⟩]) := hinv.addVars_inv rfl
  have e2 : removeVars (addVars ctx [⟨x, [.scalar a]⟩]) [⟨x, [.scalar a]⟩] = ctx := i1.remove_eq rfl
  have e1 : evalScalars (eval cfg (n + 4)) [e] (addVars ctx [⟨x, [.scalar a]⟩]) = .ok [y] := by
    unfold evalScalars addVars
    rw [mapM_single]
    simp only [List.foldl_cons, List.foldl_nil, h, ok_bind]
    rfl
  have e3 : evalScalars (eval cfg (n + 4)) [] (addVars ctx [⟨x, [.scalar a]⟩]) = .ok [] := rfl
  unfold newton
  dsimp only
  rw [e2, e1]
  dsimp only
  rw [e3, jacobi_one hfresh n a y y' rest' h']
  by_cases hs : normSmall cfg [y] = true
  · simp only [hs, if_true, List.isEmpty_nil, e2]
  · simp only [hs, Bool.false_eq_true, if_false]
    have : ([⟨x, [.scalar (stepOf cfg a y y')]⟩] : List (Variable F)).mapM (fun i => (Out.unwrap i.values[0]? : Out EvalError (Value F)))
        = .ok [.scalar (stepOf cfg a y y')] := rfl
    rw [this]
    simp only [List.any_cons, List.any_nil, Bool.or_false]
    split <;> rfl

/-- The value of a step. -/
theorem stepOf_val {a y y' : F} {u v v' : ℝ} (ha : Exact.val a = some u) (hy : Exact.val y = some v) (hy' : Exact.val y' = some v')
    (hne : v' ≠ v) : Exact.val (stepOf cfg a y y') = some (u - v * 10 ^ (-(cfg.prec : Int)) / (v' - v)) := by
  have hm : Exact.val (FArith.ofInt (-1) : F) = some (-1 : ℝ) := by simpa using Exact.val_ofInt (F := F) (K := ℝ) (-1)
  have hpos : (10 : ℝ) ^ (-(cfg.prec : Int)) ≠ 0 := zpow_ne_zero _ (by norm_num)
  have h0 : v' + v * -1 ≠ 0 := fun hc => hne (by linarith)
  have h1 := Exact.val_div (Exact.val_add hy' (Exact.val_mul hy hm)) (val_stepH (F := F) (K := ℝ) cfg) hpos
  have h2 := Exact.val_add (Exact.val_div (Exact.val_mul hm hy) h1 (div_ne_zero h0 hpos)) ha
  unfold stepOf
  rw [h2]
  congr 1
  have h3 : v' - v ≠ 0 := fun hc => hne (by linarith)
  rw [show v' + v * -1 = v' - v by ring]
  field_simp
  ring

theorem stepOf_flat {a y y' : F} {v : ℝ} (hy : Exact.val y = some v) (hy' : Exact.val y' = some v) :
    Exact.val (stepOf cfg a y y') = none := by
  have hm : Exact.val (FArith.ofInt (-1) : F) = some (-1 : ℝ) := by simpa using Exact.val_ofInt (F := F) (K := ℝ) (-1)
  have hpos : (10 : ℝ) ^ (-(cfg.prec : Int)) ≠ 0 := zpow_ne_zero _ (by norm_num)
  have h1 := Exact.val_div (Exact.val_add hy' (Exact.val_mul hy hm)) (val_stepH (F := F) (K := ℝ) cfg) hpos
  rw [show (v + v * -1) / 10 ^ (-(cfg.prec : Int)) = 0 by ring] at h1
  exact Exact.add_none (Or.inl (Exact.div_none (Or.inr h1)))

theorem stepOf_left {a y y' : F} (hy : Exact.val y = none) : Exact.val (stepOf cfg a y y') = none :=
  Exact.add_none (Or.inl (Exact.div_none (Or.inl (Exact.mul_none (Or.inr hy)))))

/-- If only the second value is no number, the iteration breaks off or stays where it is. -/
theorem stepOf_right {a y y' : F} {u v : ℝ} (ha : Exact.val a = some u) (hy : Exact.val y = some v) (hy' : Exact.val y' = none) :
    Exact.val (stepOf cfg a y y') = none ∨ Exact.val (stepOf cfg a y y') = some u := by
  have hm : Exact.val (FArith.ofInt (-1) : F) = some (-1 : ℝ) := by simpa using Exact.val_ofInt (F := F) (K := ℝ) (-1)
  have h1 : Exact.val (FArith.div (FArith.add y' (FArith.mul y (FArith.ofInt (-1)))) (stepH F cfg)) = none :=
    Exact.div_none (Or.inl (Exact.add_none (Or.inl hy')))
  have h2 := Exact.finite_iff (F := F) (K := ℝ) (FArith.div (FArith.add y' (FArith.mul y (FArith.ofInt (-1)))) (stepH F cfg))
  rw [h1, Option.isNone_none, Bool.or_eq_true] at h2
  unfold stepOf
  rcases h2 with h2 | h2
  · right
    have := Exact.val_add (Exact.val_div_inf (Exact.val_mul hm hy) h2) ha
    rw [this, zero_add]
  · left
    refine Exact.add_none (Or.inl ?_)
    have h3 := Exact.div_nan (F := F) (a := FArith.mul (FArith.ofInt (-1)) y) (Or.inr h2)
    have h4 := Exact.finite_iff (F := F) (K := ℝ) (FArith.div (FArith.mul (FArith.ofInt (-1)) y) (FArith.div (FArith.add y' (FArith.mul y (FArith.ofInt (-1)))) (stepH F cfg)))
    rw [h3, Bool.or_true] at h4
    exact Option.isNone_iff_eq_none.1 h4.symm

theorem infOrNan_iff (a : F) : (Value.scalar a).isInfOrNan = (Exact.val a).isNone := by
  rw [← Exact.finite_iff]
  rfl

/-- A library number and a real number are the same. -/
def Same (a : F) (u : ℝ) : Prop := Exact.val a = some u

theorem loop1_one (hfresh : ∀ v ∈ ctx.vars, v.name ≠ x) (hf : FunctionOf cfg ctx x e f) (k : Nat) (a : F) (u : ℝ)
    (ha : Exact.val a = some u) :
    ∃ r : Option F, Option.Rel Same r (newtonFrom f (10 ^ (-(cfg.prec : Int))) k u) ∧
      Eventually fun n => solveLoop1 cfg (eval cfg n) [e] [] k [⟨x, [.scalar a]⟩] ctx = .ok ⟨r.map .scalar, false, ctx⟩ := by
  induction k generalizing a u with
  | zero => exact ⟨none, .none, 0, fun n _ => rfl⟩
  | succ k ih =>
    obtain ⟨y, rest, hy1, hy2⟩ := hf a u ha
    have ha' := Exact.val_add ha (val_stepH (F := F) (K := ℝ) cfg)
    obtain ⟨y', rest', hy1', hy2'⟩ := hf _ _ ha'
    have hev : Eventually fun n => newton cfg (eval cfg n) [e] [] [⟨x, [.scalar a]⟩] ctx =
      (if normSmall cfg [y] then .ok (.finishedX [⟨x, [.scalar a]⟩])
        else if (Value.scalar (stepOf cfg a y y')).isInfOrNan then .err .naNOrInf
        else .ok (.nextX [⟨x, [.scalar (stepOf cfg a y y')]⟩]), ctx) := by
      refine (Eventually.and (Eventually.and (finishes_from hy1) (finishes_from hy1')) (Eventually.ge 4)).mono ?_
      rintro n ⟨⟨h1, h2⟩, h3⟩
      obtain ⟨m, rfl⟩ := Nat.exists_eq_add_of_le' h3
      exact newton_one hfresh m a y y' rest rest' h1 h2
    rw [newtonFrom]
    cases hfu : f u with
    | none =>
      rw [hfu] at hy2
      refine ⟨none, .none, hev.mono fun n hn => ?_⟩
      unfold solveLoop1
      rw [hn, normSmall_none hy2, infOrNan_iff, stepOf_left hy2]
      rfl
    | some v =>
      rw [hfu] at hy2
      have hsm := normSmall_one (cfg := cfg) hy2
      simp only
      by_cases hv : |v| < 10 ^ (-(cfg.prec : Int))
      · rw [if_pos hv]
        refine ⟨some a, .some ha, hev.mono fun n hn => ?_⟩
        unfold solveLoop1
        rw [hn, hsm, decide_eq_true hv]
        rfl
      · rw [if_neg hv]
        cases hfu' : f (u + 10 ^ (-(cfg.prec : Int))) with
        | none =>
          rw [hfu'] at hy2'
          simp only
          rcases stepOf_right (cfg := cfg) ha hy2 hy2' with hs | hs
          · refine ⟨none, .none, hev.mono fun n hn => ?_⟩
            unfold solveLoop1
            rw [hn, hsm, decide_eq_false hv, infOrNan_iff, hs]
            rfl
          · obtain ⟨r, hr1, hr2⟩ := ih (stepOf cfg a y y') u hs
            have hnone : newtonFrom f (10 ^ (-(cfg.prec : Int))) k u = none := by
              cases k with
              | zero => rfl
              | succ k => rw [newtonFrom]; simp only [hfu, if_neg hv, hfu']
            rw [hnone] at hr1
            cases hr1
            refine ⟨none, .none, (hev.and hr2).mono fun n hn => ?_⟩
            unfold solveLoop1
            rw [hn.1, hsm, decide_eq_false hv, infOrNan_iff, hs]
            exact hn.2
        | some v' =>
          rw [hfu'] at hy2'
          simp only
          by_cases hvv : v' = v
          · subst hvv
            rw [if_pos rfl]
            refine ⟨none, .none, hev.mono fun n hn => ?_⟩
            unfold solveLoop1
            rw [hn, hsm, decide_eq_false hv, infOrNan_iff, stepOf_flat hy2 hy2']
            rfl
          · rw [if_neg hvv]
            have hs := stepOf_val (cfg := cfg) ha hy2 hy2' hvv
            obtain ⟨r, hr1, hr2⟩ := ih _ _ hs
            refine ⟨r, hr1, (hev.and hr2).mono fun n hn => ?_⟩
            unfold solveLoop1
            rw [hn.1, hsm, decide_eq_false hv, infOrNan_iff, hs]
            exact hn.2

theorem loop0_one (hfresh : ∀ v ∈ ctx.vars, v.name ≠ x) (hf : FunctionOf cfg ctx x e f) (js : List Int) (acc : List F) (us : List ℝ)
    (hacc : List.Forall₂ Same acc us) :
    ∃ l : List F, List.Forall₂ Same l (us ++ js.filterMap fun j : Int => newtonFrom f (10 ^ (-(cfg.prec : Int))) 1000 (j : ℝ)) ∧
      Eventually fun n => solveLoop0 cfg (eval cfg n) [e] [] [x] js ctx (acc.map .scalar) = .ok (l.map .scalar) := by
  induction js generalizing acc us with
  | nil => exact ⟨acc, by simpa using hacc, 0, fun n _ => rfl⟩
  | cons j js ih =>
    obtain ⟨r, hr1, hr2⟩ := loop1_one hfresh hf 1000 (FArith.ofInt j) (j : ℝ) (Exact.val_ofInt j)
    generalize hg : newtonFrom f (10 ^ (-(cfg.prec : Int))) 1000 (j : ℝ) = g at hr1
    cases hr1 with
    | none =>
      obtain ⟨l, hl1, hl2⟩ := ih acc us hacc
      refine ⟨l, by rw [List.filterMap_cons_none (f := fun j : Int => newtonFrom f (10 ^ (-(cfg.prec : Int))) 1000 (j : ℝ)) hg]; exact hl1,
        (hr2.and hl2).mono fun n hn => ?_⟩
      unfold solveLoop0
      simp only [List.map_cons, List.map_nil, hn.1, ok_bind, Option.map_none, hn.2, Bool.false_eq_true, if_false]
    | @some a b hab =>
      obtain ⟨l, hl1, hl2⟩ := ih (acc ++ [a]) (us ++ [b]) (List.rel_append hacc (.cons hab .nil))
      refine ⟨l, by rw [List.filterMap_cons_some (f := fun j : Int => newtonFrom f (10 ^ (-(cfg.prec : Int))) 1000 (j : ℝ)) hg]; simpa using hl1,
        (hr2.and hl2).mono fun n hn => ?_⟩
      unfold solveLoop0
      have := hn.2
      rw [List.map_append] at this
      simp only [List.map_cons, List.map_nil, hn.1, ok_bind, Option.map_some, Bool.false_eq_true, if_false]
      exact this

theorem forall_mergeSort {r : F → F → Bool} {s : ℝ → ℝ → Bool} {l : List F} {us : List ℝ} (h : List.Forall₂ Same l us)
    (hrs : ∀ a b u v, Same a u → Same b v → r a b = s u v) : List.Forall₂ Same (l.mergeSort r) (us.mergeSort s) := by
  have hus : us = l.map fun a => (Exact.val a).getD (0 : ℝ) := by
    induction h with
    | nil => rfl
    | @cons a u l us hau h ih => rw [List.map_cons, ← ih, show Exact.val a = some u from hau]; rfl
  have hall : ∀ a ∈ l, Same a ((Exact.val a).getD (0 : ℝ)) := by
    clear hus
    induction h with
    | nil => simp
    | @cons a u l us hau h ih =>
      intro b hb
      rcases List.mem_cons.1 hb with rfl | hb
      · rw [show Exact.val b = some u from hau]; exact hau
      · exact ih b hb
  have hm := List.map_mergeSort (f := fun a : F => (Exact.val a).getD (0 : ℝ)) (r := r) (s := s) (l := l)
    fun a ha b hb => hrs a b _ _ (hall a ha) (hall b hb)
  rw [hus, ← hm, List.forall₂_map_right_iff, List.forall₂_same]
  intro a ha
  exact hall a ((List.mergeSort_perm l r).mem_iff.1 ha)

theorem sortByKey_one {ε : Type} {key : F → F} {k : ℝ → ℝ} (hk : ∀ a u, Same a u → Same (key a) (k u)) {l : List F} {us : List ℝ}
    (h : List.Forall₂ Same l us) :
    ∃ l' : List F, (sortByKey key (l.map .scalar) : Out ε _) = .ok (l'.map .scalar) ∧
      List.Forall₂ Same l' (us.mergeSort fun a b => decide (k a ≤ k b)) := by
  refine ⟨l.mergeSort fun a b => !FArith.lt (key b) (key a), ?_, forall_mergeSort h ?_⟩
  · unfold sortByKey
    have hkeyed : ((l.map Value.scalar).mapM fun v => do
        let k ← (sortKey v : Out ε F)
        (.ok (key k, v) : Out ε (F × Value F))) = .ok (l.map fun a => (key a, .scalar a)) := by
      clear h
      induction l with
      | nil => rfl
      | cons a l ih =>
        rw [List.map_cons, List.mapM_cons, ih]
        rfl
    rw [hkeyed, ok_bind, if_neg]
    · have := List.map_mergeSort (f := fun a : F => (key a, (Value.scalar a))) (r := fun a b => !FArith.lt (key b) (key a))
        (s := fun a b => !FArith.lt b.1 a.1) (l := l) (fun a _ b _ => rfl)
      rw [← this, List.map_map]
      rfl
    · rw [Bool.not_eq_true, List.any_eq_false]
      intro kv hkv
      obtain ⟨a, ha, rfl⟩ := List.mem_map.1 hkv
      have : ∃ u, Same a u := by
        clear hkeyed hkv
        induction h with
        | nil => simp at ha
        | cons hau h ih =>
          rcases List.mem_cons.1 ha with rfl | ha
          · exact ⟨_, hau⟩
          · exact ih ha
      obtain ⟨u, hu⟩ := this
      have := (finite_of_val (hk a u hu)).1
      simp [this]
  · intro a b u v hu hv
    rw [Exact.lt_val (hk b v hv) (hk a u hu)]
    by_cases h : k u ≤ k v
    · simp [h, not_lt.2 h]
    · simp [h, not_le.1 h]

theorem sameRounded_beq {p : Nat} (h31 : p < 2 ^ 31) {a b : F} {u v : ℝ} (ha : Same a u) (hb : Same b v) :
    Value.beq ((Value.scalar a).round p) ((Value.scalar b).round p) = true ↔ SameRounded p u v := by
  simp only [Value.round_small _ h31, Value.roundTo, Value.beq]
  rw [Exact.beq_val (roundScalar_val p ha) (roundScalar_val p hb), decide_eq_true_eq]
  have hp : (10 : ℝ) ^ p ≠ 0 := by positivity
  rw [div_left_inj' hp, Int.cast_inj]
  rfl

open Classical in
theorem dedup_one {l acc : List F} {us ac : List ℝ} (h : List.Forall₂ Same l us) (hacc : List.Forall₂ Same acc ac) :
    ∃ l' : List F, dedupResults cfg (l.map .scalar) (acc.map .scalar) = l'.map .scalar ∧
      List.Forall₂ Same l' (us.foldl (fun acc x => if ∃ y ∈ acc, SameRounded (cfg.prec - 2) x y then acc else acc ++ [x]) ac) := by
  induction h generalizing acc ac with
  | nil => exact ⟨acc, rfl, hacc⟩
  | @cons a u l us hau h ih =>
    have hiff : ((acc.map Value.scalar).any fun j => Value.beq ((Value.scalar a).round (cfg.prec - 2)) (j.round (cfg.prec - 2))) = true
        ↔ ∃ y ∈ ac, SameRounded (cfg.prec - 2) u y := by
      clear ih
      induction hacc with
      | nil => simp
      | @cons b v acc ac hb hacc ih =>
        rw [List.map_cons, List.any_cons, Bool.or_eq_true, ih, sameRounded_beq cfg.small_two hau hb]
        simp
    rw [List.map_cons, dedupResults, List.foldl_cons]
    by_cases hc : ∃ y ∈ ac, SameRounded (cfg.prec - 2) u y
    · rw [if_pos (hiff.2 hc), if_pos hc]
      exact ih hacc
    · rw [if_neg (fun h => hc (hiff.1 h)), if_neg hc]
      have := ih (List.rel_append hacc (.cons hau .nil))
      rw [List.map_append] at this
      exact this

theorem clean_one {ε : Type} {l : List F} {us : List ℝ} (h : List.Forall₂ Same l us) :
    ∃ l' : List F, (cleanResults cfg (l.map .scalar) : Out ε _) = .ok (l'.map .scalar) ∧
      List.Forall₂ Same l' (reported (cfg.prec - 2) us) := by
  obtain ⟨d, hd1, hd2⟩ := dedup_one (cfg := cfg) h .nil
  rw [List.map_nil] at hd1
  have hd2 : List.Forall₂ Same d (distinct (cfg.prec - 2) us) := hd2
  cases h with
  | nil => exact ⟨[], rfl, by simp [reported, distinct]⟩
  | @cons a u l us hau h =>
    unfold cleanResults reported
    rw [List.map_cons] at hd1 ⊢
    simp only [hd1, List.length_map]
    rw [← hd2.length_eq]
    by_cases hlen : d.length ≤ 10
    · rw [if_neg (by omega), if_pos hlen]
      exact ⟨d, rfl, hd2⟩
    · rw [if_pos (by omega), if_neg hlen]
      obtain ⟨s1, h1, h2⟩ := sortByKey_one (ε := ε) (key := FArith.abs) (k := fun x => |x|)
        (fun a u h => by unfold Same at *; rw [Exact.val_abs, h]; rfl) hd2
      obtain ⟨s2, h3, h4⟩ := sortByKey_one (ε := ε) (key := id) (k := id) (fun a u h => h) (List.forall₂_take 10 h2)
      refine ⟨s2, ?_, h4⟩
      rw [h1, ok_bind, ← List.map_take]
      exact h3

/-- The whole procedure. -/
theorem solve_one (hfresh : ∀ v ∈ ctx.vars, v.name ≠ x) (l r : AST F) (hf : FunctionOf cfg ctx x (residualExpr (l, r)) f) :
    ∃ vs : List F, List.Forall₂ Same vs (reported (cfg.prec - 2) (found f (10 ^ (-(cfg.prec : Int))))) ∧
      Eventually fun n => evalRec cfg n (.equation [(l, r)] [x]) ctx [] = .ok (vs.map .scalar) := by
  obtain ⟨res, hr1, hr2⟩ := loop0_one hfresh hf startValues [] [] .nil
  have hstart : (startValues.filterMap fun j : Int => newtonFrom f (10 ^ (-(cfg.prec : Int))) 1000 (j : ℝ)) = found f (10 ^ (-(cfg.prec : Int))) := by
    unfold startValues found
    rw [List.filterMap_map]
    congr 1
    funext k
    simp
  rw [List.nil_append, hstart] at hr1
  obtain ⟨vs, hv1, hv2⟩ := clean_one (cfg := cfg) (ε := EvalError) hr1
  refine ⟨vs, hv2, ?_⟩
  obtain ⟨y, rest, hy, _⟩ := hf (FArith.ofDec 821785 (-5)) _ (Exact.val_ofDec _ _)
  have hinv : Inv ctx [x] ctx := Inv.refl (by simpa using hfresh)
  have e2 : ∀ a, (ctx.addVar ⟨x, [.scalar a]⟩).removeVar x = ctx := by
    intro a
    have i1 : Inv ctx [x] (addVars ctx [⟨x, [.scalar a]⟩]) := hinv.addVars_inv rfl
    exact i1.remove_eq (x := [⟨x, [.scalar a]⟩]) rfl
  obtain ⟨N, hN⟩ := Eventually.and hr2 (finishes_from hy)
  refine ⟨N + 1, fun m hm => ?_⟩
  obtain ⟨n, rfl⟩ := Nat.exists_eq_add_of_le' (le_trans (Nat.le_add_left 1 N) hm)
  obtain ⟨h1, h2⟩ := hN n (by omega)
  rw [evalRec.eq_def]
  simp only [solveEquations]
  have hev : (fun a c => evalRec cfg n a c []) = (eval cfg n : Evaluator F) := rfl
  rw [hev]
  have hnew : RootFinder.new (eval cfg n) [residualExpr (l, r)] ctx [x] = .ok ⟨[residualExpr (l, r)], [[0]], ctx, [x]⟩ := by
    unfold RootFinder.new
    rw [if_neg (by simp), if_neg (by simp [AST.isOperation, residualExpr]), if_neg, if_neg (by simp)]
    · simp only [idx, List.getElem?_cons_zero, Out.unwrap, ok_bind, List.foldl_cons, List.foldl_nil, e2]
      have h2 : eval cfg n (residualExpr (l, r)) (ctx.addVar ⟨x, [.scalar (FArith.ofDec 821785 (-5))]⟩) = .ok (.scalar y :: rest) := h2
      rw [h2, ok_bind]
      rfl
    · simpa using hfresh
  show (RootFinder.new (eval cfg n) [residualExpr (l, r)] ctx [x] >>= _) = _
  rw [hnew, ok_bind]
  have hsplit : (splitExprs [0] 0 [] [residualExpr (l, r)] : Out EvalError _) = .ok ([residualExpr (l, r)], []) := rfl
  have h1 : solveLoop0 cfg (eval cfg n) [residualExpr (l, r)] [] [x] startValues ctx [] = .ok (res.map .scalar) := h1
  simp only [RootFinder.findRoots, findRootsLoop, hsplit, ok_bind, h1, hv1]
  cases vs <;> rfl

end
end MUL
