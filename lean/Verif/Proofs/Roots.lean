import Verif.Spec.Roots
import Verif.Proofs.EvalCtx
import Verif.Props.Combinatorics
/-!
# Invariants of the root finder
-/

namespace MUL
open Out Spec

set_option linter.unusedSectionVars false

section
variable {F : Type} [FNum F]

/-! ## Setting and removing the search variables -/

/-- The variables added by `addVars`, without the context. -/
def added (x : List (Variable F)) : List (Variable F) := (addVars ⟨[], []⟩ x).vars

theorem addVars_eq (c : Context F) (x : List (Variable F)) :
    addVars c x = ⟨(c.vars.filter fun v => !(x.map (·.name)).contains v.name) ++ added x, c.funs⟩ := by
  induction x generalizing c with
  | nil => simp [addVars, added]
  | cons v x ih =>
    have hstep : ∀ c : Context F, addVars c (v :: x) = addVars (c.addVar v) x := fun c => rfl
    unfold added
    rw [hstep, hstep, ih, ih]
    simp only [Context.addVar, List.filter_append, List.filter_filter, List.filter_nil, List.nil_append, List.append_assoc]
    congr 2
    congr 1
    funext w
    simp only [List.map_cons, List.contains_cons, Bool.not_or]
    rw [Bool.and_comm]
    rfl

theorem removeVars_eq (c : Context F) (x : List (Variable F)) :
    removeVars c x = ⟨c.vars.filter fun v => !(x.map (·.name)).contains v.name, c.funs⟩ := by
  induction x generalizing c with
  | nil => simp [removeVars]
  | cons v x ih =>
    have hstep : removeVars c (v :: x) = removeVars (c.removeVar v.name) x := rfl
    rw [hstep, ih]
    simp only [Context.removeVar, List.filter_filter]
    congr 2
    funext w
    simp only [List.map_cons, List.contains_cons, Bool.not_or]
    rw [Bool.and_comm]
    rfl

theorem added_names (x : List (Variable F)) : ∀ v ∈ added x, v.name ∈ x.map (·.name) := by
  induction x with
  | nil => simp [added, addVars]
  | cons w x ih =>
    intro v hv
    have : added (w :: x) = (addVars ((⟨[], []⟩ : Context F).addVar w) x).vars := rfl
    rw [this, addVars_eq] at hv
    simp only [Context.addVar, List.filter_nil, List.nil_append, List.mem_append, List.mem_filter, List.mem_singleton] at hv
    rcases hv with ⟨rfl, _⟩ | hv
    · simp
    · exact List.mem_cons_of_mem _ (ih v hv)

/-- The context is `c0`, up to entries for the search variables. -/
structure Inv (c0 : Context F) (names : List Str) (c : Context F) : Prop where
  vars : (c.vars.filter fun v => !names.contains v.name) = c0.vars
  funs : c.funs = c0.funs

theorem Inv.refl {c0 : Context F} {names : List Str} (h : ∀ v ∈ c0.vars, v.name ∉ names) : Inv c0 names c0 := by
  refine ⟨List.filter_eq_self.2 fun v hv => ?_, rfl⟩
  simpa using h v hv

theorem Inv.addVars {c0 c : Context F} {names : List Str} (h : Inv c0 names c) {x : List (Variable F)}
    (hx : x.map (·.name) = names) : MUL.addVars c x = MUL.addVars c0 x := by
  have hself : (c0.vars.filter fun v => !names.contains v.name) = c0.vars := by
    rw [← h.vars, List.filter_filter]
    simp
  rw [addVars_eq, addVars_eq, hx, h.vars, hself, h.funs]

theorem Inv.self {c0 c : Context F} {names : List Str} (h : Inv c0 names c) :
    (c0.vars.filter fun v => !names.contains v.name) = c0.vars := by
  rw [← h.vars, List.filter_filter]
  simp

theorem Inv.addVars_inv {c0 c : Context F} {names : List Str} (h : Inv c0 names c) {x : List (Variable F)}
    (hx : x.map (·.name) = names) : Inv c0 names (MUL.addVars c x) := by
  rw [addVars_eq, hx]
  refine ⟨?_, h.funs⟩
  simp only [List.filter_append, List.filter_filter, Bool.and_self, h.vars]
  have : (added x).filter (fun v => !names.contains v.name) = [] := by
    apply List.filter_eq_nil_iff.2
    intro v hv
    have := added_names x v hv
    rw [hx] at this
    simpa using this
  rw [this, List.append_nil, h.self]

theorem Inv.removeVars_inv {c0 c : Context F} {names : List Str} (h : Inv c0 names c) {x : List (Variable F)}
    (hx : x.map (·.name) = names) : Inv c0 names (MUL.removeVars c x) := by
  rw [removeVars_eq, hx]
  refine ⟨?_, h.funs⟩
  simp only [List.filter_filter, Bool.and_self, h.vars, h.self]

/-! ## Variables holding a candidate solution -/

/-- `x` assigns the numbers `l` to the search variables. -/
structure Assigns (names : List Str) (x : List (Variable F)) (l : List F) : Prop where
  eq : x = (names.zip l).map fun p => (⟨p.1, [.scalar p.2]⟩ : Variable F)
  len : l.length = names.length

theorem Assigns.names {names : List Str} {x : List (Variable F)} {l : List F} (h : Assigns names x l) :
    x.map (·.name) = names := by
  rw [h.eq, List.map_map]
  exact List.map_fst_zip (by rw [h.len])

theorem Assigns.setVars {names : List Str} {x : List (Variable F)} {l : List F} (h : Assigns names x l) (c : Context F) :
    MUL.addVars c x = Spec.setVars c names l := by
  rw [h.eq]
  unfold MUL.addVars Spec.setVars
  rw [List.foldl_map]

/-- Finite numbers. -/
def AllFinite (l : List F) : Prop := ∀ a ∈ l, IsFinite a

theorem assigns_of {names : List Str} {x : List (Variable F)} (hn : x.map (·.name) = names)
    (hv : ∀ v ∈ x, ∃ s, v.values = [.scalar s] ∧ IsFinite s) : ∃ l, Assigns names x l ∧ AllFinite l := by
  induction x generalizing names with
  | nil =>
    subst hn
    exact ⟨[], ⟨rfl, rfl⟩, by simp [AllFinite]⟩
  | cons v x ih =>
    subst hn
    obtain ⟨l, hl, hl'⟩ := ih rfl fun w hw => hv w (by simp [hw])
    obtain ⟨s, hs, hs'⟩ := hv v (by simp)
    refine ⟨s :: l, ⟨?_, by simp [hl.len]⟩, ?_⟩
    · simp only [List.map_cons, List.zip_cons_cons]
      rw [← hl.eq]
      cases v
      simp only at hs
      rw [hs]
    · intro a ha
      rcases List.mem_cons.1 ha with rfl | ha
      · exact hs'
      · exact hl' a ha

theorem Assigns.result {ε : Type} {names : List Str} {x : List (Variable F)} {l : List F} (h : Assigns names x l) :
    (resultValue x : Out ε (Value F)) = .ok (asSolution l) := by
  have : (x.mapM fun i => (firstScalar i.values : Out ε F)) = .ok l := by
    rw [h.eq]
    have hl := h.len
    clear h
    induction names generalizing l with
    | nil =>
      cases l with
      | nil => rfl
      | cons => simp at hl
    | cons n names ih =>
      cases l with
      | nil => simp at hl
      | cons a l =>
        rw [List.zip_cons_cons, List.map_cons, List.mapM_cons, ih (by simpa using hl)]
        rfl
  unfold resultValue
  rw [this, ok_bind]
  cases l with
  | nil => rfl
  | cons a l => cases l <;> rfl

/-! ## One Newton step -/

theorem jacobi_names {cfg : Cfg} {ev : Evaluator F} {es : List (AST F)} {x y : List (Variable F)} {c : Context F} {fx : List F}
    (h : jacobiAndGauss cfg ev es x c fx = .ok y) :
    y.map (·.name) = x.map (·.name) ∧ ∀ v ∈ y, ∃ s, v.values = [.scalar s] := by
  unfold jacobiAndGauss at h
  obtain ⟨_, _, h⟩ := bind_eq_ok.1 h
  obtain ⟨_, _, h⟩ := bind_eq_ok.1 h
  obtain ⟨d, _, h⟩ := bind_eq_ok.1 h
  rw [mapM_eq_ok] at h
  have key : ∀ (r : List Nat) (y : List (Variable F)), List.Forall₂ (fun i (v : Variable F) => (do
      let xi ← idx x i
      let dv ← Out.unwrap d.getVector
      let di ← idx dv i
      let old ← firstScalar xi.values
      (.ok ⟨xi.name, [.scalar (FArith.add di old)]⟩ : Out EvalError (Variable F))) = .ok v) r y →
      y.map (fun v => some v.name) = r.map (fun i => (x[i]?).map (·.name)) ∧ ∀ v ∈ y, ∃ s, v.values = [.scalar s] := by
    intro r y hr
    induction hr with
    | nil => simp
    | cons hv hr ih =>
      obtain ⟨xi, hxi, hv⟩ := bind_eq_ok.1 hv
      obtain ⟨_, _, hv⟩ := bind_eq_ok.1 hv
      obtain ⟨_, _, hv⟩ := bind_eq_ok.1 hv
      obtain ⟨_, _, hv⟩ := bind_eq_ok.1 hv
      injection hv with hv
      subst hv
      rw [idx_eq_ok] at hxi
      refine ⟨by simp [ih.1, hxi], ?_⟩
      intro v hv
      rcases List.mem_cons.1 hv with rfl | hv
      · exact ⟨_, rfl⟩
      · exact ih.2 v hv
  obtain ⟨h1, h2⟩ := key _ _ h
  refine ⟨?_, h2⟩
  have h3 : (List.range x.length).map (fun i => (x[i]?).map (·.name)) = x.map (fun v => some v.name) := by
    apply List.ext_getElem
    · simp
    · intro i h1 h2
      simp at h1
      simp [List.getElem?_eq_getElem h1]
  rw [h3] at h1
  have := congrArg (List.filterMap id) h1
  simpa [List.filterMap_map, Function.comp_def] using this

/-- What `newton` says about a finished candidate, relative to the original context. -/
structure Accepted (cfg : Cfg) (ev : Evaluator F) (c0 : Context F) (names : List Str) (search check : List (AST F))
    (l : List F) : Prop where
  len : l.length = names.length
  fin : AllFinite l
  searched : ∃ fx, evalScalars ev search (setVars c0 names l) = .ok fx ∧ normSmall cfg fx = true
  checked : ∃ cr, evalScalars ev check (setVars c0 names l) = .ok cr ∧ (cr = [] ∨ normSmall cfg cr = true)

theorem newton_spec {cfg : Cfg} {ev : Evaluator F} {search check : List (AST F)} {c0 c : Context F} {names : List Str}
    (hc : Inv c0 names c) {x : List (Variable F)} {l : List F} (hx : Assigns names x l) (hl : AllFinite l) :
    Inv c0 names (newton cfg ev search check x c).2 ∧
    (∀ y, (newton cfg ev search check x c).1 = .ok (.finishedX y) → y = x ∧ Accepted cfg ev c0 names search check l) ∧
    (∀ y, (newton cfg ev search check x c).1 = .ok (.nextX y) → ∃ l', Assigns names y l' ∧ AllFinite l') := by
  have hn := hx.names
  have h1 : Inv c0 names (addVars c x) := hc.addVars_inv hn
  have h2 : Inv c0 names (removeVars (addVars c x) x) := h1.removeVars_inv hn
  have h3 : Inv c0 names (addVars (removeVars (addVars c x) x) x) := h2.addVars_inv hn
  have e1 : addVars c x = setVars c0 names l := by rw [hc.addVars hn, hx.setVars]
  have e3 : addVars (removeVars (addVars c x) x) x = setVars c0 names l := by rw [h2.addVars hn, hx.setVars]
  unfold newton
  dsimp only
  cases hfx : evalScalars ev search (addVars c x) with
  | err e => exact ⟨h1, by simp, by simp⟩
  | panic => exact ⟨h1, by simp, by simp⟩
  | timeout => exact ⟨h1, by simp, by simp⟩
  | ok fx =>
    dsimp only
    by_cases hsmall : normSmall cfg fx = true
    · rw [if_pos hsmall]
      cases hcr : evalScalars ev check (addVars (removeVars (addVars c x) x) x) with
      | err e => exact ⟨h3, by simp, by simp⟩
      | panic => exact ⟨h3, by simp, by simp⟩
      | timeout => exact ⟨h3, by simp, by simp⟩
      | ok cr =>
        dsimp only
        have hacc : ∀ h : cr = [] ∨ normSmall cfg cr = true, Accepted cfg ev c0 names search check l := fun h =>
          ⟨hx.len, hl, ⟨fx, by rw [← e1]; exact hfx, hsmall⟩, ⟨cr, by rw [← e3]; exact hcr, h⟩⟩
        by_cases hemp : cr.isEmpty = true
        · rw [if_pos hemp]
          refine ⟨h3.removeVars_inv hn, ?_, by simp⟩
          intro y hy
          simp only [Out.ok.injEq, NewtonReturn.finishedX.injEq] at hy
          exact ⟨hy.symm, hacc (Or.inl (List.isEmpty_iff.1 hemp))⟩
        · rw [if_neg hemp]
          by_cases hs2 : normSmall cfg cr = true
          · rw [if_pos hs2]
            refine ⟨h3.removeVars_inv hn, ?_, by simp⟩
            intro y hy
            simp only [Out.ok.injEq, NewtonReturn.finishedX.injEq] at hy
            exact ⟨hy.symm, hacc (Or.inr hs2)⟩
          · rw [if_neg hs2]
            exact ⟨h3.removeVars_inv hn, by simp, by simp⟩
    · rw [if_neg hsmall]
      cases hj : jacobiAndGauss cfg ev search x (removeVars (addVars c x) x) fx with
      | err e => exact ⟨h2, by simp, by simp⟩
      | panic => exact ⟨h2, by simp, by simp⟩
      | timeout => exact ⟨h2, by simp, by simp⟩
      | ok newX =>
        dsimp only
        obtain ⟨hy1, hy2⟩ := jacobi_names hj
        cases hvs : newX.mapM (fun i => (Out.unwrap i.values[0]? : Out EvalError (Value F))) with
        | err e => exact ⟨h2, by simp, by simp⟩
        | panic => exact ⟨h2, by simp, by simp⟩
        | timeout => exact ⟨h2, by simp, by simp⟩
        | ok vs =>
          dsimp only
          by_cases hany : vs.any Value.isInfOrNan = true
          · rw [if_pos hany]
            exact ⟨h2, by simp, by simp⟩
          · rw [if_neg hany]
            refine ⟨h2, by simp, ?_⟩
            intro y hy
            simp only [Out.ok.injEq, NewtonReturn.nextX.injEq] at hy
            subst hy
            apply assigns_of (hy1.trans hn)
            intro v hv
            obtain ⟨s, hs⟩ := hy2 v hv
            refine ⟨s, hs, ?_⟩
            rw [mapM_eq_ok] at hvs
            have : ∃ w ∈ vs, (Out.unwrap v.values[0]? : Out EvalError (Value F)) = .ok w := by
              clear hany hj hy1 hy2 hs
              induction hvs with
              | nil => simp at hv
              | cons h hs ih =>
                rcases List.mem_cons.1 hv with rfl | hv
                · exact ⟨_, by simp, h⟩
                · obtain ⟨w, hw, hw'⟩ := ih hv
                  exact ⟨w, by simp [hw], hw'⟩
            obtain ⟨w, hw, hw'⟩ := this
            rw [hs] at hw'
            have hw2 : w = .scalar s := by
              simp only [List.getElem?_cons_zero, Out.unwrap, Out.ok.injEq] at hw'
              exact hw'.symm
            subst hw2
            have hf : Value.isInfOrNan (.scalar s) = false := by
              simp only [List.any_eq_true, not_exists, not_and] at hany
              simpa using hany _ hw
            simp only [Value.isInfOrNan, Bool.or_eq_false_iff] at hf
            exact ⟨hf.2, hf.1⟩

/-! ## The loops -/

theorem solveLoop1_spec {cfg : Cfg} {ev : Evaluator F} {search check : List (AST F)} {c0 : Context F} {names : List Str}
    (k : Nat) {c : Context F} (hc : Inv c0 names c) {x : List (Variable F)} {l : List F} (hx : Assigns names x l)
    (hl : AllFinite l) {r : Loop1 F} (h : solveLoop1 cfg ev search check k x c = .ok r) :
    Inv c0 names r.ctx ∧ ∀ v, r.found = some v → ∃ l, v = asSolution l ∧ Accepted cfg ev c0 names search check l := by
  induction k generalizing c x l with
  | zero =>
    simp only [solveLoop1, Out.ok.injEq] at h
    subst h
    exact ⟨hc, by simp⟩
  | succ k ih =>
    obtain ⟨h1, h2, h3⟩ := newton_spec (cfg := cfg) (ev := ev) (search := search) (check := check) hc hx hl
    unfold solveLoop1 at h
    generalize hq : newton cfg ev search check x c = q at h h1 h2 h3
    obtain ⟨o, c'⟩ := q
    dsimp only at h h1 h2 h3
    cases o with
    | ok nr =>
      cases nr with
      | nextX y =>
        obtain ⟨l', hy, hl'⟩ := h3 y rfl
        exact ih h1 hy hl' h
      | finishedX y =>
        obtain ⟨rfl, hacc⟩ := h2 y rfl
        dsimp only at h
        rw [hx.result, ok_bind] at h
        injection h with h
        subst h
        exact ⟨h1, fun v hv => ⟨l, by simpa using hv.symm, hacc⟩⟩
    | err e =>
      cases e <;> dsimp only at h <;> first
        | (injection h with h; subst h; exact ⟨h1, by simp⟩)
        | cases h
    | panic => cases h
    | timeout => cases h

theorem solveLoop0_spec {cfg : Cfg} {ev : Evaluator F} {search check : List (AST F)} {c0 : Context F} {names : List Str}
    (js : List Int) (hjs : ∀ j ∈ js, IsFinite (FArith.ofInt j : F)) {c : Context F} (hc : Inv c0 names c)
    {acc r : List (Value F)} (h : solveLoop0 cfg ev search check names js c acc = .ok r)
    (hacc : ∀ v ∈ acc, ∃ l, v = asSolution l ∧ Accepted cfg ev c0 names search check l) :
    ∀ v ∈ r, ∃ l, v = asSolution l ∧ Accepted cfg ev c0 names search check l := by
  induction js generalizing c acc with
  | nil =>
    simp only [solveLoop0, Out.ok.injEq] at h
    subst h
    exact hacc
  | cons j js ih =>
    unfold solveLoop0 at h
    dsimp only at h
    obtain ⟨r1, hr1, h⟩ := bind_eq_ok.1 h
    have hx : Assigns names (names.map fun k => (⟨k, [.scalar (FArith.ofInt j)]⟩ : Variable F))
        (List.replicate names.length (FArith.ofInt j)) := by
      refine ⟨?_, by simp⟩
      apply List.ext_getElem
      · simp
      · intro i h1 h2
        simp
    have hl : AllFinite (List.replicate names.length (FArith.ofInt j : F)) := by
      intro a ha
      rw [List.eq_of_mem_replicate ha]
      exact hjs j (by simp)
    obtain ⟨h1, h2⟩ := solveLoop1_spec 1000 hc hx hl hr1
    have hacc' : ∀ v ∈ (match r1.found with | some v => acc ++ [v] | none => acc),
        ∃ l, v = asSolution l ∧ Accepted cfg ev c0 names search check l := by
      cases hf : r1.found with
      | none => exact hacc
      | some w =>
        intro v hv
        rcases List.mem_append.1 hv with hv | hv
        · exact hacc v hv
        · rw [List.mem_singleton.1 hv]
          exact h2 w hf
    split at h
    · simp only [Out.ok.injEq] at h
      rw [← h]
      exact hacc'
    · exact ih (fun j hj => hjs j (by simp [hj])) h1 h hacc'

/-! ## Cleaning the results -/

theorem dedupResults_sub (cfg : Cfg) (l acc : List (Value F)) : ∀ v ∈ dedupResults cfg l acc, v ∈ l ∨ v ∈ acc := by
  induction l generalizing acc with
  | nil => intro v hv; exact Or.inr (by simpa [dedupResults] using hv)
  | cons i l ih =>
    intro v hv
    unfold dedupResults at hv
    split at hv
    · rcases ih _ v hv with h | h
      · exact Or.inl (by simp [h])
      · exact Or.inr h
    · rcases ih _ v hv with h | h
      · exact Or.inl (by simp [h])
      · rcases List.mem_append.1 h with h | h
        · exact Or.inr h
        · exact Or.inl (by simp [List.mem_singleton.1 h])

/-- Two values are the same after rounding to `PREC-2` decimals. -/
def sameRounded (cfg : Cfg) (a b : Value F) : Bool := Value.beq (a.round (cfg.prec - 2)) (b.round (cfg.prec - 2))

theorem dedupResults_distinct (cfg : Cfg) (l acc : List (Value F))
    (hacc : acc.Pairwise fun a b => sameRounded cfg b a = false) :
    (dedupResults cfg l acc).Pairwise fun a b => sameRounded cfg b a = false := by
  induction l generalizing acc with
  | nil => simpa [dedupResults] using hacc
  | cons i l ih =>
    unfold dedupResults
    split
    · exact ih acc hacc
    · rename_i hany
      refine ih _ ?_
      rw [List.pairwise_append]
      refine ⟨hacc, List.pairwise_singleton _ _, ?_⟩
      intro a ha b hb
      rw [List.mem_singleton.1 hb]
      simp only [List.any_eq_true, not_exists, not_and] at hany
      simpa [sameRounded] using hany a ha

theorem sortByKey_perm {ε : Type} {key : F → F} {l r : List (Value F)} (h : (sortByKey key l : Out ε _) = .ok r) : r.Perm l := by
  unfold sortByKey at h
  obtain ⟨keyed, hk, h⟩ := bind_eq_ok.1 h
  split at h
  · cases h
  · injection h with h
    subst h
    have h1 : keyed.map Prod.snd = l := by
      rw [mapM_eq_ok] at hk
      rename_i hnan
      clear h hnan
      induction hk with
      | nil => rfl
      | cons hv hs ih =>
        obtain ⟨k, _, hv⟩ := bind_eq_ok.1 hv
        injection hv with hv
        subst hv
        rw [List.map_cons, ih]
    conv_rhs => rw [← h1]
    exact (List.mergeSort_perm _ _).map _

theorem beqList_symm (hs : ∀ a b : F, FArith.beq a b = FArith.beq b a) (l r : List F) :
    Value.beqList l r = Value.beqList r l := by
  induction l generalizing r with
  | nil => cases r <;> rfl
  | cons a l ih => cases r with
    | nil => rfl
    | cons b r => simp only [Value.beqList, hs a b, ih r]

theorem beqRows_symm (hs : ∀ a b : F, FArith.beq a b = FArith.beq b a) (l r : List (List F)) :
    Value.beqRows l r = Value.beqRows r l := by
  induction l generalizing r with
  | nil => cases r <;> rfl
  | cons a l ih => cases r with
    | nil => rfl
    | cons b r => simp only [Value.beqRows, beqList_symm hs a b, ih r]

theorem beq_symm (hs : ∀ a b : F, FArith.beq a b = FArith.beq b a) (a b : Value F) : Value.beq a b = Value.beq b a := by
  cases a <;> cases b <;> first
    | rfl
    | exact hs _ _
    | exact beqList_symm hs _ _
    | exact beqRows_symm hs _ _

theorem cleanResults_sub {ε : Type} {cfg : Cfg} {l r : List (Value F)} (h : (cleanResults cfg l : Out ε _) = .ok r) :
    ∀ v ∈ r, v ∈ l := by
  have hd : ∀ v ∈ dedupResults cfg l [], v ∈ l := fun v hv => by
    rcases dedupResults_sub cfg l [] v hv with h | h
    · exact h
    · simp at h
  unfold cleanResults at h
  split at h
  · injection h with h
    subst h
    simp
  · rename_i r0 rest
    dsimp only at h
    split at h
    · injection h with h
      subst h
      exact hd
    · split at h
      · obtain ⟨s, hs, h⟩ := bind_eq_ok.1 h
        intro v hv
        have h1 := (sortByKey_perm h).mem_iff.1 hv
        have h2 := (sortByKey_perm hs).mem_iff.1 (List.mem_of_mem_take h1)
        exact hd v h2
      · injection h with h
        subst h
        exact hd

theorem cleanResults_distinct {ε : Type} {cfg : Cfg} (hsym : ∀ a b : F, FArith.beq a b = FArith.beq b a)
    {l r : List (Value F)} (h : (cleanResults cfg l : Out ε _) = .ok r) :
    r.Pairwise fun a b => sameRounded cfg a b = false := by
  have hsym' : ∀ {a b : Value F}, sameRounded cfg a b = false → sameRounded cfg b a = false := by
    intro a b h
    unfold sameRounded at h ⊢
    rw [beq_symm hsym]
    exact h
  have hd := dedupResults_distinct cfg l [] List.Pairwise.nil
  have hd : (dedupResults cfg l []).Pairwise fun a b => sameRounded cfg a b = false := hd.imp hsym'
  unfold cleanResults at h
  split at h
  · injection h with h
    subst h
    exact List.Pairwise.nil
  · dsimp only at h
    split at h
    · injection h with h
      subst h
      exact hd
    · split at h
      · obtain ⟨s, hs, h⟩ := bind_eq_ok.1 h
        have h1 : s.Pairwise fun a b => sameRounded cfg a b = false :=
          (List.Perm.pairwise_iff hsym' (sortByKey_perm hs)).2 hd
        have h2 : (s.take 10).Pairwise fun a b => sameRounded cfg a b = false := h1.sublist (List.take_sublist _ _)
        exact (List.Perm.pairwise_iff hsym' (sortByKey_perm h)).2 h2
      · injection h with h
        subst h
        exact hd

theorem cleanResults_length {ε : Type} {cfg : Cfg} {l r : List (Value F)} (h : (cleanResults cfg l : Out ε _) = .ok r)
    (hl : ∀ v ∈ l, ∀ m, v ≠ .matrix m) : r.length ≤ 10 := by
  unfold cleanResults at h
  split at h
  · injection h with h
    subst h
    simp
  · dsimp only at h
    split at h
    · exact absurd rfl (hl _ List.mem_cons_self _)
    · split at h
      · obtain ⟨s, hs, h⟩ := bind_eq_ok.1 h
        rw [(sortByKey_perm h).length_eq, List.length_take]
        omega
      · injection h with h
        subst h
        omega

/-! ## The whole search -/

theorem getElem_cons_eraseIdx {α : Type} (l : List α) (i : Nat) (h : i < l.length) : (l[i] :: l.eraseIdx i).Perm l := by
  induction l generalizing i with
  | nil => simp at h
  | cons a l ih => cases i with
    | zero => exact List.Perm.refl _
    | succ i => exact (List.Perm.swap _ _ _).trans (List.Perm.cons _ (ih i (by simpa using h)))

theorem splitExprs_perm {ε α : Type} {js : List Nat} {r : Nat} {s c s' c' : List α}
    (h : (splitExprs js r s c : Out ε (List α × List α)) = .ok (s', c')) :
    (s' ++ c').Perm (s ++ c) ∧ s'.length = s.length + js.length := by
  induction js generalizing r s c with
  | nil =>
    simp only [splitExprs, Out.ok.injEq, Prod.mk.injEq] at h
    obtain ⟨rfl, rfl⟩ := h
    exact ⟨List.Perm.refl _, rfl⟩
  | cons j js ih =>
    unfold splitExprs at h
    split at h
    · cases h
    · obtain ⟨e, he, h⟩ := bind_eq_ok.1 h
      obtain ⟨h1, h2⟩ := ih h
      rw [idx_eq_ok] at he
      obtain ⟨hj, rfl⟩ := List.getElem?_eq_some_iff.1 he
      refine ⟨h1.trans ?_, by simp [h2]; omega⟩
      rw [List.append_assoc]
      exact List.Perm.append_left _ (getElem_cons_eraseIdx _ _ hj)

/-- The root finder works in the given context (up to entries for the search variables). -/
theorem new_inv {ev : Evaluator F} {es : List (AST F)} {ctx : Context F} {names : List Str} {rf : RootFinder F}
    (h : RootFinder.new ev es ctx names = .ok rf) : Inv ctx names rf.context := by
  unfold RootFinder.new at h
  split at h
  · cases h
  split at h
  · cases h
  split at h
  · cases h
  rename_i hnot
  split at h
  · cases h
  obtain ⟨e0, _, h⟩ := bind_eq_ok.1 h
  obtain ⟨r, _, h⟩ := bind_eq_ok.1 h
  obtain ⟨v, _, h⟩ := bind_eq_ok.1 h
  have hctx : Inv ctx names ctx := by
    apply Inv.refl
    intro v hv hn
    apply hnot
    rw [List.any_eq_true]
    exact ⟨v.name, hn, by simpa using ⟨v, hv, rfl⟩⟩
  have hadd : names.foldl (fun c i => c.addVar ⟨i, [.scalar (FArith.ofDec 821785 (-5))]⟩) ctx
      = addVars ctx (names.map fun i => (⟨i, [.scalar (FArith.ofDec 821785 (-5))]⟩ : Variable F)) := by
    unfold addVars
    rw [List.foldl_map]
  have hrem : ∀ c : Context F, names.foldl (fun c i => c.removeVar i) c
      = removeVars c (names.map fun i => (⟨i, [.scalar (FArith.ofDec 821785 (-5))]⟩ : Variable F)) := by
    intro c
    unfold removeVars
    rw [List.foldl_map]
  have hnames : (names.map fun i => (⟨i, [.scalar (FArith.ofDec 821785 (-5))]⟩ : Variable F)).map (·.name) = names := by
    rw [List.map_map]
    exact List.map_id _
  cases v with
  | vector v => cases h
  | matrix v => cases h
  | scalar s =>
    simp only [Out.ok.injEq] at h
    subst h
    show Inv ctx names (names.foldl (fun c i => c.removeVar i) _)
    rw [hadd, hrem]
    exact (hctx.addVars_inv hnames).removeVars_inv hnames

theorem findRootsLoop_spec {cfg : Cfg} {ev : Evaluator F} {rf : RootFinder F} {c0 : Context F}
    (hjs : ∀ j ∈ startValues, IsFinite (FArith.ofInt j : F)) (hc : Inv c0 rf.searchVarsNames rf.context)
    (cs : List (List Nat)) (hcs : ∀ c ∈ cs, c.length = rf.searchVarsNames.length) {vs : List (Value F)}
    (h : findRootsLoop cfg ev rf cs = .ok vs) :
    vs = [] ∨ ∃ search check results, (search ++ check).Perm rf.expressions ∧ search.length = rf.searchVarsNames.length ∧
      (cleanResults cfg results : Out EvalError _) = .ok vs ∧
      ∀ v ∈ results, ∃ l, v = asSolution l ∧ Accepted cfg ev c0 rf.searchVarsNames search check l := by
  induction cs with
  | nil =>
    simp only [findRootsLoop, Out.ok.injEq] at h
    exact Or.inl h.symm
  | cons i cs ih =>
    unfold findRootsLoop at h
    obtain ⟨⟨search, check⟩, hsplit, h⟩ := bind_eq_ok.1 h
    obtain ⟨results, hres, h⟩ := bind_eq_ok.1 h
    obtain ⟨cleaned, hclean, h⟩ := bind_eq_ok.1 h
    split at h
    · injection h with h
      subst h
      obtain ⟨h1, h2⟩ := splitExprs_perm hsplit
      refine Or.inr ⟨search, check, results, by simpa using h1, ?_, hclean, ?_⟩
      · rw [h2, hcs i (by simp)]
        simp
      · exact solveLoop0_spec startValues hjs hc hres (by simp)
    · exact ih (fun c hc => hcs c (by simp [hc])) h

theorem evalScalars_residuals {cfg : Cfg} {n : Nat} {es : List (AST F)} {ctx : Context F} {names : List Str} {l : List F}
    {rs : List F} (h : evalScalars (eval cfg n) es (setVars ctx names l) = .ok rs) : Residuals cfg ctx names l es rs := by
  unfold evalScalars at h
  rw [mapM_eq_ok] at h
  refine h.imp fun e r hr => ?_
  obtain ⟨vs, hvs, hr⟩ := bind_eq_ok.1 hr
  unfold firstScalar at hr
  obtain ⟨v, hv, hr⟩ := bind_eq_ok.1 hr
  cases vs with
  | nil => cases hv
  | cons w rest =>
    injection hv with hv
    subst hv
    cases w with
    | scalar s =>
      injection hr with hr
      subst hr
      exact ⟨rest, by simp, n, hvs⟩
    | vector v => cases hr
    | matrix m => cases hr

/-- Everything known about the outcome of an equation. -/
theorem equation_spec {cfg : Cfg} {n : Nat} {eqs : List (AST F × AST F)} {names : List Str} {ctx : Context F}
    {vs : List (Value F)} (hjs : ∀ j ∈ startValues, IsFinite (FArith.ofInt j : F))
    (h : eval cfg n (.equation eqs names) ctx = .ok vs) :
    vs = [] ∨ ∃ search check results, (search ++ check).Perm (eqs.map residualExpr) ∧ search.length = names.length ∧
      (cleanResults cfg results : Out EvalError _) = .ok vs ∧
      ∃ m, ∀ v ∈ results, ∃ l, v = asSolution l ∧ Accepted cfg (eval cfg m) ctx names search check l := by
  cases n with
  | zero => cases h
  | succ n =>
    unfold eval at h
    rw [evalRec.eq_def] at h
    simp only [solveEquations] at h
    obtain ⟨rf, hrf, h⟩ := bind_eq_ok.1 h
    obtain ⟨h1, h2, h3, _⟩ := C49_root_finder _ _ _ _ _ hrf
    have hinv := new_inv hrf
    rw [← h2] at hinv
    rcases findRootsLoop_spec hjs hinv rf.combinations (fun c hc => by rw [h2]; exact ((h3 c).1 hc).2.2) h with hvs | hvs
    · exact Or.inl hvs
    · obtain ⟨search, check, results, hp, hl, hcl, hacc⟩ := hvs
      rw [h2] at hl hacc
      rw [h1] at hp
      exact Or.inr ⟨search, check, results, hp, hl, hcl, n, hacc⟩

end
end MUL
