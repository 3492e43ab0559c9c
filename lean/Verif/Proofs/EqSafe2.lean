import Verif.Proofs.EqSafe
import Verif.Proofs.Inverse
import Verif.Props.Combinatorics
/-!
# The root finder does not panic on formulas of numbers (for C80)
-/

namespace MUL
open Out Spec FArith

set_option linter.unusedSectionVars false

section
variable {F : Type} [FNum F]

theorem gauss_safe {n : Nat} (hn : 0 < n) {u : List (List F)} (hu : Rect n (n + 1) u) :
    Safe (fun v => ∃ l, v = .vector l ∧ l.length = n) (gaussAlgorithm u) := by
  rw [gauss_eq hn hu]
  refine Post.bind (eliminate_post _ hu (by omega)) fun v hv => ?_
  refine Post.bind (eliminate_post _ (rect_rev hv 1) (by omega)) fun v' _ => ?_
  exact ⟨_, rfl, by simp [gaussRes]⟩

/-- The context is `c0`, up to variables that hold numbers. -/
structure NumExt (c0 c : Context F) : Prop where
  funs : c.funs = c0.funs
  vars : ∀ v ∈ c.vars, v ∈ c0.vars ∨ Numbers v.values

theorem NumExt.refl (c0 : Context F) : NumExt c0 c0 := ⟨rfl, fun _ hv => Or.inl hv⟩

theorem NumExt.addVar {c0 c : Context F} (h : NumExt c0 c) {v : Variable F} (hv : Numbers v.values) : NumExt c0 (c.addVar v) := by
  refine ⟨h.funs, fun w hw => ?_⟩
  simp only [Context.addVar, List.mem_append, List.mem_filter, List.mem_singleton] at hw
  rcases hw with ⟨hw, _⟩ | rfl
  · exact h.vars w hw
  · exact Or.inr hv

theorem NumExt.removeVar {c0 c : Context F} (h : NumExt c0 c) (n : Str) : NumExt c0 (c.removeVar n) := by
  refine ⟨h.funs, fun w hw => ?_⟩
  simp only [Context.removeVar, List.mem_filter] at hw
  exact h.vars w hw.1

theorem NumExt.addVars {c0 c : Context F} (h : NumExt c0 c) {x : List (Variable F)} (hx : ∀ v ∈ x, Numbers v.values) :
    NumExt c0 (MUL.addVars c x) := by
  induction x generalizing c with
  | nil => exact h
  | cons v x ih => exact ih (h.addVar (hx v (by simp))) fun w hw => hx w (by simp [hw])

theorem NumExt.removeVars {c0 c : Context F} (h : NumExt c0 c) (x : List (Variable F)) : NumExt c0 (MUL.removeVars c x) := by
  induction x generalizing c with
  | nil => exact h
  | cons v x ih => exact ih (h.removeVar _)

theorem NumExt.append {c0 c : Context F} (h : NumExt c0 c) {x : List (Variable F)} (hx : ∀ v ∈ x, Numbers v.values) :
    NumExt c0 ⟨c.vars ++ x, c.funs⟩ :=
  ⟨h.funs, fun v hv => (List.mem_append.1 hv).elim (h.vars v) fun hv => Or.inr (hx v hv)⟩

theorem NumExt.context {Φ V : Str → Prop} {c0 c : Context F} {names : List Str} (h : NumExt c0 c) (h0 : NumberContext Φ V c0)
    (hn : ∀ v ∈ c0.vars, v.name ∉ names) : NumberContext Φ (fun n => V n ∨ n ∈ names) c :=
  h0.change h.funs (fun _ h => Or.inl h) fun v hv hW => (h.vars v hv).imp (fun h1 => ⟨hW.resolve_right (hn v h1), h1⟩) id

theorem Assigns.numbers {names : List Str} {x : List (Variable F)} {l : List F} (h : Assigns names x l) :
    ∀ v ∈ x, ∃ s, v.values = [.scalar s] := by
  rw [h.eq]
  intro v hv
  obtain ⟨p, _, rfl⟩ := List.mem_map.1 hv
  exact ⟨_, rfl⟩

theorem firstScalar_safe {ε : Type} {vs : List (Value F)} (h : Numbers vs) : Safe (fun _ => True) (firstScalar vs : Out ε F) := by
  obtain ⟨v, vs, rfl⟩ := List.exists_cons_of_ne_nil h.1
  obtain ⟨s, rfl⟩ := h.2 v (by simp)
  trivial

section
variable {cfg : Cfg} {ev : Evaluator F} {Φ V : Str → Prop} {c0 : Context F} {names : List Str}
  (hev : NumEv Φ ev) (h0 : NumberContext Φ V c0) (hn0 : ∀ v ∈ c0.vars, v.name ∉ names)

include hev h0 hn0 in
theorem evalScalars_safe {es : List (AST F)} (hes : ∀ e ∈ es, NumberFormula Φ (fun n => V n ∨ n ∈ names) e) {c : Context F}
    (hc : NumExt c0 c) : Safe (fun fx => fx.length = es.length) (evalScalars ev es c) := by
  unfold evalScalars
  refine Post.mono (Post.mapM (P := fun _ => True) _ fun e he => ?_) fun _ h => h.1
  exact Post.bind (hev _ e c (hes e he) (hc.context h0 hn0)) fun r hr => firstScalar_safe hr

include hev h0 hn0 in
theorem derivativeNewton_safe {e : AST F} (he : NumberFormula Φ (fun n => V n ∨ n ∈ names) e) (x : Str) (s fx : F) {c : Context F}
    (hc : NumExt c0 c) : Safe (fun v => ∃ y, v = .scalar y) (calculateDerivativeNewton cfg ev e x (.scalar s) (some (.scalar fx)) c) := by
  unfold calculateDerivativeNewton
  simp only [dropVar_eq, ok_bind]
  have h1 := ((hc.removeVar x).addVar (v := ⟨x, [.scalar (add s (powi (ofInt 10) (-(cfg.prec : Int))))]⟩) (numbers_one _)).context h0 hn0
  refine Post.bind (hev _ e _ he h1) fun r hr => ?_
  obtain ⟨v, r, rfl⟩ := List.exists_cons_of_ne_nil hr.1
  obtain ⟨y, rfl⟩ := hr.2 v (by simp)
  simp only [List.getElem?_cons_zero, Out.unwrap, ok_bind]
  refine Post.bind (hev _ _ _ (numberFormula_dq cfg y fx) h1) fun r hr => ?_
  obtain ⟨v, r, rfl⟩ := List.exists_cons_of_ne_nil hr.1
  obtain ⟨y, rfl⟩ := hr.2 v (by simp)
  exact ⟨y, rfl⟩

include hev h0 hn0 in
theorem jacobi_safe {es : List (AST F)} (hes : ∀ e ∈ es, NumberFormula Φ (fun n => V n ∨ n ∈ names) e) {x : List (Variable F)}
    (hx : ∀ v ∈ x, ∃ s, v.values = [.scalar s]) (hlen : es.length = x.length) (hpos : 0 < x.length) {fx : List F}
    (hfx : fx.length = es.length) {c : Context F} (hc : NumExt c0 c) :
    Safe (fun _ => True) (jacobiAndGauss cfg ev es x c fx) := by
  have hxn : ∀ v ∈ x, Numbers v.values := fun v hv => by
    obtain ⟨s, hs⟩ := hx v hv
    rw [hs]
    exact numbers_one _
  unfold jacobiAndGauss
  refine Post.bind (Post.mapM (P := fun r : List F => r.length = x.length) _ fun i hi => ?_) fun jac hjac => ?_
  · have hi : i < es.length := List.mem_range.1 hi
    refine Post.mono (Post.mapM (P := fun _ => True) _ fun j hj => ?_) fun r hr => by rw [hr.1, List.length_range]
    have hj : j < x.length := List.mem_range.1 hj
    obtain ⟨s, hs⟩ := hx _ (List.getElem_mem hj)
    rw [idx_lt hi, ok_bind, idx_lt hj, ok_bind, hs]
    simp only [List.getElem?_cons_zero, Out.unwrap, ok_bind]
    rw [idx_lt (show i < fx.length by omega), ok_bind]
    refine Post.bind (derivativeNewton_safe hev h0 hn0 (hes _ (List.getElem_mem hi)) _ s _ (hc.append ?_)) fun v hv => ?_
    · intro v hv
      obtain ⟨k, _, hk⟩ := List.mem_filterMap.1 hv
      exact hxn v (List.mem_of_getElem? hk)
    · obtain ⟨y, rfl⟩ := hv
      trivial
  · rw [List.length_range] at hjac
    refine Post.bind (Post.mapM (P := fun r : List F => r.length = x.length + 1) _ fun i hi => ?_) fun m hm => ?_
    · have hi : i < jac.length := List.mem_range.1 hi
      rw [idx_lt hi, ok_bind, idx_lt (show i < fx.length by omega), ok_bind]
      simp [hjac.2 _ (List.getElem_mem hi)]
    · rw [List.length_range] at hm
      refine Post.bind (gauss_safe hpos ⟨by rw [hm.1, hjac.1, hlen], hm.2⟩) fun d hd => ?_
      obtain ⟨l, rfl, hl⟩ := hd
      refine Post.mono (Post.mapM (P := fun _ => True) _ fun i hi => ?_) fun _ _ => trivial
      have hi : i < x.length := List.mem_range.1 hi
      obtain ⟨s, hs⟩ := hx _ (List.getElem_mem hi)
      rw [idx_lt hi, ok_bind]
      simp only [Value.getVector, Out.unwrap, ok_bind]
      rw [idx_lt (show i < l.length by omega), ok_bind, hs]
      trivial

include hev h0 hn0 in
theorem newton_safe {search check : List (AST F)} (hs : ∀ e ∈ search, NumberFormula Φ (fun n => V n ∨ n ∈ names) e)
    (hk : ∀ e ∈ check, NumberFormula Φ (fun n => V n ∨ n ∈ names) e) (hlen : search.length = names.length) (hpos : 0 < names.length)
    {x : List (Variable F)} {l : List F} (hx : Assigns names x l) {c : Context F} (hc : NumExt c0 c) :
    (newton cfg ev search check x c).1 ≠ .panic ∧ NumExt c0 (newton cfg ev search check x c).2 := by
  have hxn : ∀ v ∈ x, Numbers v.values := fun v hv => by
    obtain ⟨s, hs⟩ := hx.numbers v hv
    rw [hs]
    exact numbers_one _
  have hxl : x.length = names.length := by rw [← hx.names, List.length_map]
  have h1 := hc.addVars hxn
  have h2 := h1.removeVars x
  have h3 := h2.addVars hxn
  have h4 := h3.removeVars x
  have p1 := evalScalars_safe hev h0 hn0 hs h1
  have p3 := evalScalars_safe hev h0 hn0 hk h3
  unfold newton
  dsimp only
  cases hfx : evalScalars ev search (addVars c x) with
  | err e => exact ⟨by simp, h1⟩
  | panic => rw [hfx] at p1; exact absurd trivial p1
  | timeout => exact ⟨by simp, h1⟩
  | ok fx =>
    rw [hfx] at p1
    dsimp only
    by_cases hsmall : normSmall cfg fx = true
    · rw [if_pos hsmall]
      cases hcr : evalScalars ev check (addVars (removeVars (addVars c x) x) x) with
      | err e => exact ⟨by simp, h3⟩
      | panic => rw [hcr] at p3; exact absurd trivial p3
      | timeout => exact ⟨by simp, h3⟩
      | ok cr =>
        dsimp only
        split
        · exact ⟨by simp, h4⟩
        · split
          · exact ⟨by simp, h4⟩
          · exact ⟨by simp, h4⟩
    · rw [if_neg hsmall]
      have pj := jacobi_safe (cfg := cfg) hev h0 hn0 hs hx.numbers (by rw [hlen, hxl]) (by rw [hxl]; exact hpos) p1 h2
      cases hj : jacobiAndGauss cfg ev search x (removeVars (addVars c x) x) fx with
      | err e => exact ⟨by simp, h2⟩
      | panic => rw [hj] at pj; exact absurd trivial pj
      | timeout => exact ⟨by simp, h2⟩
      | ok y =>
        dsimp only
        have py : Safe (fun _ => True) (y.mapM (fun i => (Out.unwrap i.values[0]? : Out EvalError (Value F)))) := by
          refine Post.mono (Post.mapM (P := fun _ => True) _ fun v hv => ?_) fun _ _ => trivial
          obtain ⟨s, hs⟩ := (jacobi_names hj).2 v hv
          rw [hs]
          trivial
        cases hy : y.mapM (fun i => (Out.unwrap i.values[0]? : Out EvalError (Value F))) with
        | err e => exact ⟨by simp, h2⟩
        | panic => rw [hy] at py; exact absurd trivial py
        | timeout => exact ⟨by simp, h2⟩
        | ok vs =>
          dsimp only
          split
          · exact ⟨by simp, h2⟩
          · exact ⟨by simp, h2⟩

include hev h0 hn0 in
theorem solveLoop1_safe {search check : List (AST F)} (hs : ∀ e ∈ search, NumberFormula Φ (fun n => V n ∨ n ∈ names) e)
    (hk : ∀ e ∈ check, NumberFormula Φ (fun n => V n ∨ n ∈ names) e) (hlen : search.length = names.length) (hpos : 0 < names.length)
    (k : Nat) {x : List (Variable F)} {l : List F} (hx : Assigns names x l) (hl : AllFinite l) {c : Context F} (hi : Inv c0 names c)
    (hc : NumExt c0 c) : Safe (fun r => NumExt c0 r.ctx) (solveLoop1 cfg ev search check k x c) := by
  induction k generalizing c x l with
  | zero => exact hc
  | succ k ih =>
    obtain ⟨h1, h2, h3⟩ := newton_spec (cfg := cfg) (ev := ev) (search := search) (check := check) hi hx hl
    obtain ⟨n1, n2⟩ := newton_safe (cfg := cfg) hev h0 hn0 hs hk hlen hpos hx hc
    unfold solveLoop1
    generalize hq : newton cfg ev search check x c = q at h1 h2 h3 n1 n2
    obtain ⟨o, c'⟩ := q
    dsimp only at h1 h2 h3 n1 n2
    cases o with
    | ok nr =>
      cases nr with
      | nextX y =>
        obtain ⟨l', hy, hl'⟩ := h3 y rfl
        exact ih hy hl' h1 n2
      | finishedX y =>
        obtain ⟨rfl, _⟩ := h2 y rfl
        dsimp only
        rw [hx.result, ok_bind]
        exact n2
    | err e => cases e <;> first | exact n2 | trivial
    | panic => exact absurd rfl n1
    | timeout => trivial

include hev h0 hn0 in
theorem solveLoop0_safe {search check : List (AST F)} (hs : ∀ e ∈ search, NumberFormula Φ (fun n => V n ∨ n ∈ names) e)
    (hk : ∀ e ∈ check, NumberFormula Φ (fun n => V n ∨ n ∈ names) e) (hlen : search.length = names.length) (hpos : 0 < names.length)
    (js : List Int) (hjs : ∀ j ∈ js, IsFinite (FArith.ofInt j : F)) {c : Context F} (hi : Inv c0 names c)
    (hc : NumExt c0 c) (acc : List (Value F)) : Safe (fun _ => True) (solveLoop0 cfg ev search check names js c acc) := by
  induction js generalizing c acc with
  | nil => trivial
  | cons j js ih =>
    unfold solveLoop0
    dsimp only
    have hx : Assigns names (names.map fun k => (⟨k, [.scalar (FArith.ofInt j)]⟩ : Variable F))
        (List.replicate names.length (FArith.ofInt j)) := by
      refine ⟨?_, by simp⟩
      apply List.ext_getElem
      · simp
      · intro i h1 h2
        simp
    have hl : AllFinite (List.replicate names.length (FArith.ofInt j : F)) := by
      intro a ha
      rw [List.eq_of_mem_replicate ha]
      exact hjs j (by simp)
    refine Post.bind' (solveLoop1_safe (cfg := cfg) hev h0 hn0 hs hk hlen hpos 1000 hx hl hi hc) fun r hr hr' => ?_
    split
    · trivial
    · exact ih (fun j hj => hjs j (by simp [hj])) (solveLoop1_spec 1000 hi hx hl hr).1 hr' _

end

/-! ## Cleaning the results -/

theorem sortByKey_safe {ε : Type} {key : F → F} {l : List (Value F)} (h : ∀ v ∈ l, ∃ s, (sortKey v : Out ε F) = .ok s ∧ isNaN (key s) = false) :
    Safe (fun _ => True) (sortByKey key l : Out ε _) := by
  unfold sortByKey
  refine Post.bind (Post.mapM (P := fun kv => isNaN kv.1 = false) _ fun v hv => ?_) fun keyed hk => ?_
  · obtain ⟨s, hs, hn⟩ := h v hv
    rw [hs, ok_bind]
    exact hn
  · rw [if_neg]
    · trivial
    · simp only [List.any_eq_true, not_exists, not_and, Bool.not_eq_true]
      exact fun kv hkv => hk.2 kv hkv

theorem cleanResults_safe {ε : Type} (cfg : Cfg) (habs : ∀ a : F, IsFinite a → isNaN (FArith.abs a) = false) {l : List (Value F)}
    (h : ∀ v ∈ l, ∃ r, v = asSolution r ∧ r ≠ [] ∧ AllFinite r) : Safe (fun _ => True) (cleanResults cfg l : Out ε _) := by
  have key : ∀ v ∈ l, ∃ s, (sortKey v : Out ε F) = .ok s ∧ IsFinite s := by
    intro v hv
    obtain ⟨r, rfl, hr, hf⟩ := h v hv
    rcases r with _ | ⟨a, _ | ⟨b, r⟩⟩
    · exact absurd rfl hr
    · exact ⟨a, rfl, hf a (by simp)⟩
    · exact ⟨a, rfl, hf a (by simp)⟩
  unfold cleanResults
  split
  · trivial
  rename_i l r0 rest
  dsimp only
  generalize r0 :: rest = l at h key
  split
  · trivial
  · split
    · have h1 : ∀ v ∈ dedupResults cfg l [], v ∈ l := fun v hv => (dedupResults_sub cfg l [] v hv).resolve_right (by simp)
      have hsafe := sortByKey_safe (ε := ε) (key := FArith.abs) (l := dedupResults cfg l []) fun v hv => by
        obtain ⟨s, hs, hf⟩ := key v (h1 v hv)
        exact ⟨s, hs, habs s hf⟩
      refine Post.bind' hsafe fun r hr _ => ?_
      refine sortByKey_safe (key := id) fun v hv => ?_
      obtain ⟨s, hs, hf⟩ := key v (h1 v ((sortByKey_perm hr).subset (List.mem_of_mem_take hv)))
      exact ⟨s, hs, hf.1⟩
    · trivial

/-! ## Choosing the equations -/

theorem splitExprs_safe {ε α : Type} (js : List Nat) (r : Nat) (s c : List α) (hs : js.Pairwise (· < ·)) (hr : ∀ j ∈ js, r ≤ j)
    (hc : ∀ j ∈ js, j < c.length + r) : Safe (fun _ => True) (splitExprs js r s c : Out ε _) := by
  induction js generalizing r s c with
  | nil => trivial
  | cons j js ih =>
    unfold splitExprs
    have h1 := hr j (by simp)
    have h2 := hc j (by simp)
    rw [if_neg (by omega), idx_lt (show j - r < c.length by omega), ok_bind]
    rw [List.pairwise_cons] at hs
    refine ih _ _ _ hs.2 (fun i hi => by have := hs.1 i hi; omega) fun i hi => ?_
    have := hc i (by simp [hi])
    rw [List.length_eraseIdx, if_pos (by omega)]
    omega

theorem findRootsLoop_safe {cfg : Cfg} {ev : Evaluator F} {Φ V : Str → Prop} {rf : RootFinder F} {c0 : Context F}
    (hev : NumEv Φ ev) (h0 : NumberContext Φ V c0) (hn0 : ∀ v ∈ c0.vars, v.name ∉ rf.searchVarsNames)
    (habs : ∀ a : F, IsFinite a → isNaN (FArith.abs a) = false)
    (hjs : ∀ j ∈ startValues, IsFinite (FArith.ofInt j : F)) (hi : Inv c0 rf.searchVarsNames rf.context)
    (hes : ∀ e ∈ rf.expressions, NumberFormula Φ (fun n => V n ∨ n ∈ rf.searchVarsNames) e) (hpos : 0 < rf.searchVarsNames.length)
    (hext : NumExt c0 rf.context)
    (cs : List (List Nat)) (hcs : ∀ c ∈ cs, c.length = rf.searchVarsNames.length ∧ c.Pairwise (· < ·) ∧ ∀ j ∈ c, j < rf.expressions.length) :
    Safe (fun _ => True) (findRootsLoop cfg ev rf cs) := by
  induction cs with
  | nil => trivial
  | cons i cs ih =>
    unfold findRootsLoop
    generalize startValues = js at hjs ⊢
    obtain ⟨hl, hsort, hb⟩ := hcs i (by simp)
    refine Post.bind' (splitExprs_safe i 0 [] rf.expressions hsort (by simp) (by simpa using hb)) fun sc hsc _ => ?_
    obtain ⟨search, check⟩ := sc
    obtain ⟨hperm, hlen⟩ := splitExprs_perm hsc
    have hmem : ∀ e ∈ search ++ check, e ∈ rf.expressions := fun e he => by simpa using hperm.subset he
    dsimp only
    refine Post.bind' (solveLoop0_safe (cfg := cfg) hev h0 hn0 (fun e he => hes e (hmem e (by simp [he]))) (fun e he => hes e (hmem e (by simp [he])))
      (by rw [hlen, hl]; simp) hpos js hjs hi hext []) fun results hres _ => ?_
    have hsol := solveLoop0_spec js hjs hi hres (by simp)
    refine Post.bind (cleanResults_safe cfg habs fun v hv => ?_) fun cleaned _ => ?_
    · obtain ⟨l, rfl, ha⟩ := hsol v hv
      refine ⟨l, rfl, fun h => ?_, ha.fin⟩
      have := ha.len
      rw [h] at this
      simp at this
      omega
    · split
      · trivial
      · exact ih fun c hc => hcs c (by simp [hc])

theorem solveEquations_safe {cfg : Cfg} {ev : Evaluator F} {Φ V : Str → Prop} {c0 : Context F} {eqs : List (AST F × AST F)} {names : List Str}
    (hev : NumEv Φ ev) (h0 : NumberContext Φ V c0)
    (habs : ∀ a : F, IsFinite a → isNaN (FArith.abs a) = false)
    (hjs : ∀ j ∈ startValues, IsFinite (FArith.ofInt j : F)) (hne : names ≠ [])
    (h1 : ∀ p ∈ eqs, NumberFormula Φ (fun n => V n ∨ n ∈ names) p.1)
    (h2 : ∀ p ∈ eqs, NumberFormula Φ (fun n => V n ∨ n ∈ names) p.2) :
    Safe (fun _ => True) (solveEquations cfg ev eqs c0 names) := by
  have hpos : 0 < names.length := List.length_pos_iff.2 hne
  unfold solveEquations
  simp only
  have hes : ∀ e ∈ eqs.map fun i => AST.simple .sub i.1 i.2, NumberFormula Φ (fun n => V n ∨ n ∈ names) e := by
    intro e he
    obtain ⟨p, hp, rfl⟩ := List.mem_map.1 he
    exact .simple _ _ _ (h1 p hp) (h2 p hp)
  generalize (eqs.map fun i => AST.simple .sub i.1 i.2) = es at hes
  suffices hnew : Safe (fun rf => (∀ v ∈ c0.vars, v.name ∉ names) ∧ NumExt c0 rf.context ∧ rf.expressions = es ∧ rf.searchVarsNames = names ∧
      ∀ c ∈ rf.combinations, c.length = names.length ∧ c.Pairwise (· < ·) ∧ ∀ j ∈ c, j < es.length) (RootFinder.new ev es c0 names) by
    refine Post.bind' hnew fun rf hrf h => ?_
    obtain ⟨hn0, hext, he, hnm, hcs⟩ := h
    have hi := new_inv hrf
    unfold RootFinder.findRoots
    exact findRootsLoop_safe hev h0 (by rw [hnm]; exact hn0) habs hjs (by rw [hnm]; exact hi) (by rw [he, hnm]; exact hes)
      (by rw [hnm]; exact hpos) hext _ (by rw [he, hnm]; exact hcs)
  unfold RootFinder.new
  split
  · trivial
  rename_i hlen0
  split
  · trivial
  split
  · trivial
  rename_i hnot
  have hn0 : ∀ v ∈ c0.vars, v.name ∉ names := by
    intro v hv hn
    apply hnot
    rw [List.any_eq_true]
    exact ⟨v.name, hn, by simpa using ⟨v, hv, rfl⟩⟩
  split
  · trivial
  rename_i hle
  have hadd : ∀ (ns : List Str) (c : Context F), NumExt c0 c →
      NumExt c0 (ns.foldl (fun c i => c.addVar ⟨i, [.scalar (FArith.ofDec 821785 (-5))]⟩) c) := by
    intro ns
    induction ns with
    | nil => exact fun c h => h
    | cons a ns ih => exact fun c h => ih _ (h.addVar (numbers_one _))
  have hrem : ∀ (ns : List Str) (c : Context F), NumExt c0 c → NumExt c0 (ns.foldl (fun c i => c.removeVar i) c) := by
    intro ns
    induction ns with
    | nil => exact fun c h => h
    | cons a ns ih => exact fun c h => ih _ (h.removeVar _)
  have hc1 := hadd names c0 (.refl c0)
  have h0' : 0 < es.length := Nat.pos_of_ne_zero hlen0
  dsimp only
  rw [idx_lt h0', ok_bind]
  refine Post.bind (hev _ _ _ (hes _ (List.getElem_mem h0')) (hc1.context h0 hn0)) fun r hr => ?_
  obtain ⟨v, r, rfl⟩ := List.exists_cons_of_ne_nil hr.1
  obtain ⟨s, rfl⟩ := hr.2 v (by simp)
  simp only [List.getElem?_cons_zero, Out.unwrap, ok_bind]
  refine ⟨hn0, hrem names _ hc1, rfl, rfl, ?_⟩
  intro c hc
  have hsorted : (List.range es.length).Pairwise (· < ·) := List.pairwise_lt_range
  dsimp only at hc
  split at hc
  · rw [genComb_eq_combs, mem_combs] at hc
    exact ⟨hc.2, hsorted.sublist hc.1, fun j hj => List.mem_range.1 (hc.1.subset hj)⟩
  · rw [List.mem_singleton] at hc
    subst hc
    exact ⟨by rw [List.length_range]; omega, hsorted, fun j hj => List.mem_range.1 hj⟩

end
end MUL
