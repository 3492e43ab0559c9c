import Verif.Props.Roots
import Verif.Props.Inverse
import Verif.Props.Calculus
/-!
# Newton's method on linear systems
-/

namespace MUL
open Out Spec

set_option linter.unusedSectionVars false

/-! ## Contexts -/

section
variable {F : Type} [FNum F]

/-- The variables holding the numbers `l`. -/
def assigned (names : List Str) (l : List F) : List (Variable F) := (names.zip l).map fun p => ⟨p.1, [.scalar p.2]⟩

theorem assigned_names {names : List Str} {l : List F} (h : l.length = names.length) :
    (assigned names l).map (·.name) = names := by
  unfold assigned
  rw [List.map_map]
  exact List.map_fst_zip (by rw [h])

theorem added_nodup (x : List (Variable F)) (h : (x.map (·.name)).Nodup) : added x = x := by
  induction x with
  | nil => rfl
  | cons v x ih =>
    have : added (v :: x) = (addVars ((⟨[], []⟩ : Context F).addVar v) x).vars := rfl
    rw [this, addVars_eq]
    simp only [List.map_cons, List.nodup_cons] at h
    have hf : ([v].filter fun w => !(x.map (·.name)).contains w.name) = [v] := by
      apply List.filter_eq_self.2
      intro w hw
      rw [List.mem_singleton.1 hw]
      simpa using h.1
    show ([v].filter fun w => !(x.map (·.name)).contains w.name) ++ added x = _
    rw [hf, ih h.2]
    rfl

theorem setVars_eq {ctx : Context F} {names : List Str} {l : List F} (hl : l.length = names.length) (hnd : names.Nodup)
    (hfresh : ∀ x ∈ names, ∀ v ∈ ctx.vars, v.name ≠ x) :
    setVars ctx names l = ⟨ctx.vars ++ assigned names l, ctx.funs⟩ := by
  have ha : Assigns names (assigned names l) l := ⟨rfl, hl⟩
  rw [← ha.setVars, addVars_eq, added_nodup _ (by rw [ha.names]; exact hnd), ha.names]
  congr 2
  apply List.filter_eq_self.2
  intro v hv
  simp only [List.contains_eq_mem, Bool.not_eq_eq_eq_not, Bool.not_true, decide_eq_false_iff_not]
  exact fun hn => hfresh _ hn v hv rfl

/-- Lists without duplicate names that are permutations of each other have the same entries. -/
theorem entries_perm {a b : List (Variable F)} (h : a.Perm b) (hn : (a.map (·.name)).Nodup) (n : Str) : entries a n = entries b n := by
  have hp : (entries a n).Perm (entries b n) := h.filter _
  have hlen : (entries a n).length ≤ 1 := by
    by_contra hc
    have hsub : ((entries a n).map (·.name)).Nodup := hn.sublist ((List.filter_sublist).map _)
    match h : entries a n, hc, hsub with
    | [], hc, _ => simp at hc
    | [_], hc, _ => simp at hc
    | v :: w :: r, hc, hs =>
      have hv : v ∈ entries a n := by rw [h]; simp
      have hw : w ∈ entries a n := by rw [h]; simp
      simp only [entries, List.mem_filter, beq_iff_eq] at hv hw
      simp [hv.2, hw.2] at hs
  match h1 : entries a n, hlen, hp with
  | [], _, hp => exact (List.nil_perm.1 hp).symm
  | [v], _, hp => exact List.singleton_perm.1 hp

theorem filter_ne_eraseIdx (n j : Nat) (hj : j < n) : ((List.range n).filter fun k => j != k) = (List.range n).eraseIdx j := by
  have hnd : (List.range n).Nodup := List.nodup_range
  have h1 : (List.range n).erase j = (List.range n).filter (· != j) := hnd.erase_eq_filter j
  have h2 : (List.range n).erase j = (List.range n).eraseIdx ((List.range n).idxOf j) := List.erase_eq_eraseIdx_of_idxOf rfl
  have h3 : (List.range n).idxOf j = j := by
    have := hnd.idxOf_getElem j (by simpa using hj)
    simpa using this
  rw [h3] at h2
  rw [← h2, h1]
  congr 1
  funext k
  simp [bne, Bool.beq_comm]

theorem filterMap_range_getElem? {α : Type} (x : List α) (is : List Nat) (h : ∀ i ∈ is, i < x.length) :
    ∀ (y : List α), is.map (fun i => x[i]?) = y.map some → is.filterMap (fun k => x[k]?) = y := by
  intro y hy
  have : is.filterMap (fun k => x[k]?) = (is.map (fun i => x[i]?)).filterMap id := by
    rw [List.filterMap_map]
    rfl
  rw [this, hy, List.filterMap_map]
  simp

theorem others_eq (x : List (Variable F)) (j : Nat) (hj : j < x.length) :
    (((List.range x.length).filter fun k => j != k).filterMap fun k => x[k]?) = x.eraseIdx j := by
  rw [filter_ne_eraseIdx _ _ hj]
  apply filterMap_range_getElem?
  · intro i hi
    have := (List.eraseIdx_sublist _ _).subset hi
    simpa using this
  · rw [← List.eraseIdx_map, ← List.eraseIdx_map]
    congr 1
    apply List.ext_getElem
    · simp
    · intro i h1 h2
      simp at h1
      simp [List.getElem?_eq_getElem h1]

/-- The context used for a partial derivative means the same as the one with the variables set. -/
theorem jacobi_context {ctx : Context F} {names : List Str} {l : List F} (hl : l.length = names.length) (hnd : names.Nodup)
    (hfresh : ∀ x ∈ names, ∀ v ∈ ctx.vars, v.name ≠ x) (j : Nat) (hj : j < names.length) (q : F) (cfg : Cfg) (n : Nat)
    (e : AST F) :
    eval cfg n e ((dropVar ⟨ctx.vars ++ (assigned names l).eraseIdx j, ctx.funs⟩ names[j]).addVar ⟨names[j], [.scalar q]⟩) =
      eval cfg n e (setVars ctx names (l.set j q)) := by
  have hlen : (assigned names l).length = names.length := by simp [assigned, hl]
  have hset : assigned names (l.set j q) = (assigned names l).set j ⟨names[j], [.scalar q]⟩ := by
    apply List.ext_getElem
    · simp [assigned]
    · intro i h1 h2
      simp only [assigned, List.getElem_map, List.getElem_zip, List.getElem_set]
      split
      · rename_i h
        subst h
        rfl
      · rfl
  rw [setVars_eq (by simpa using hl) hnd hfresh, dropVar_eq]
  suffices hag : ∀ x, entries (((⟨ctx.vars ++ (assigned names l).eraseIdx j, ctx.funs⟩ : Context F).removeVar names[j]).addVar
      ⟨names[j], [.scalar q]⟩).vars x = entries (ctx.vars ++ assigned names (l.set j q)) x from
    evalRec_ext cfg n (mentions_all e) (V := fun _ => True) (G := fun _ => True)
      (c' := ⟨ctx.vars ++ assigned names (l.set j q), ctx.funs⟩) ⟨fun x _ => hag x, fun _ _ => rfl⟩
      (fun _ _ _ _ => mentions_any _) []
  intro x
  have hperm : ((assigned names l).eraseIdx j ++ [(⟨names[j], [.scalar q]⟩ : Variable F)]).Perm (assigned names (l.set j q)) := by
    rw [hset]
    refine List.perm_append_comm.trans ?_
    have h1 := getElem_cons_eraseIdx ((assigned names l).set j ⟨names[j], [.scalar q]⟩) j (by simp [hlen, hj])
    simpa [List.eraseIdx_set_eq] using h1
  have hnames : ((assigned names l).eraseIdx j ++ [(⟨names[j], [.scalar q]⟩ : Variable F)]).map (·.name) = names.eraseIdx j ++ [names[j]] := by
    rw [List.map_append, ← List.eraseIdx_map, assigned_names hl]
    rfl
  have hnd' : ((((assigned names l).eraseIdx j ++ [⟨names[j], [.scalar q]⟩] : List (Variable F))).map (·.name)).Nodup := by
    rw [(hperm.map _).nodup_iff, assigned_names (by simpa using hl)]
    exact hnd
  have hnot : names[j] ∉ names.eraseIdx j := by
    rw [hnames] at hnd'
    exact fun h => (List.nodup_append.1 hnd').2.2 _ h _ (by simp) rfl
  have hctx : (Context.addVar (Context.removeVar ⟨ctx.vars ++ (assigned names l).eraseIdx j, ctx.funs⟩ names[j])
      ⟨names[j], [.scalar q]⟩).vars = ctx.vars ++ ((assigned names l).eraseIdx j ++ [⟨names[j], [.scalar q]⟩]) := by
    have hf : (ctx.vars ++ (assigned names l).eraseIdx j).filter (fun w => w.name != names[j])
        = ctx.vars ++ (assigned names l).eraseIdx j := by
      apply List.filter_eq_self.2
      intro v hv
      simp only [bne_iff_ne, ne_eq]
      rcases List.mem_append.1 hv with hv | hv
      · exact hfresh _ (List.getElem_mem hj) v hv
      · intro hn
        apply hnot
        rw [← hn]
        have : ((assigned names l).eraseIdx j).map (·.name) = names.eraseIdx j := by
          rw [← List.eraseIdx_map, assigned_names hl]
        rw [← this]
        exact List.mem_map_of_mem hv
    simp only [Context.addVar, Context.removeVar, List.filter_filter, Bool.and_self, hf, List.append_assoc]
  rw [hctx]
  simp only [entries_append ctx.vars]
  congr 1
  exact entries_perm hperm hnd' x

end

/-! ## Numbers -/

section
variable {F : Type} [FNum F] [ExactReal F]

theorem mapM_rel {ε α β γ : Type} (R : β → γ → Prop) {n : Nat} (es : List α) (hl : es.length = n) (g : α → Out ε β) (y : Fin n → γ)
    (h : ∀ i : Fin n, ∃ r, g (es[i.1]'(by omega)) = .ok r ∧ R r (y i)) :
    ∃ fx : List β, es.mapM g = .ok fx ∧ ∃ hf : fx.length = n, ∀ i : Fin n, R (fx[i.1]'(by omega)) (y i) := by
  induction es generalizing n with
  | nil =>
    subst hl
    exact ⟨[], rfl, rfl, fun i => i.elim0⟩
  | cons e es ih =>
    subst hl
    obtain ⟨r, hr, hR⟩ := h 0
    obtain ⟨fx, hfx, hlen, hall⟩ := ih rfl (fun i => y i.succ) (fun i => h i.succ)
    refine ⟨r :: fx, ?_, by simp [hlen], ?_⟩
    · rw [List.mapM_cons]
      simp only [List.getElem_cons_zero, Fin.val_zero] at hr
      rw [hr, ok_bind, hfx]
      rfl
    · intro i
      refine Fin.cases ?_ (fun i => ?_) i
      · exact hR
      · exact hall i

/-- The residuals of a system of expressions are `A x - b`, computed within the budget `m`, wherever the search variables are
set to finite numbers `x`. -/
structure LinSys (cfg : Cfg) (m : Nat) (ctx : Context F) (names : List Str) (es : List (AST F)) {n : Nat}
    (A : Matrix (Fin n) (Fin n) ℝ) (b : Fin n → ℝ) : Prop where
  es_len : es.length = n
  names_len : names.length = n
  nodup : names.Nodup
  fresh : ∀ x ∈ names, ∀ v ∈ ctx.vars, v.name ≠ x
  res : ∀ (l : List F) (x : Fin n → ℝ), VecIs l x → ∀ i : Fin n, ∃ r,
    eval cfg m (es[i.1]'(by omega)) (setVars ctx names l) = .ok [.scalar r] ∧ Exact.val r = some (A.mulVec x i - b i)

variable {cfg : Cfg} {m n : Nat} {ctx : Context F} {names : List Str} {es : List (AST F)}
  {A : Matrix (Fin n) (Fin n) ℝ} {b : Fin n → ℝ}

theorem LinSys.mono (h : LinSys cfg m ctx names es A b) {k : Nat} (hk : m ≤ k) : LinSys cfg k ctx names es A b := by
  refine ⟨h.es_len, h.names_len, h.nodup, h.fresh, fun l x hx i => ?_⟩
  obtain ⟨r, h1, h2⟩ := h.res l x hx i
  refine ⟨r, ?_, h2⟩
  rcases evalRec_le cfg hk (es[i.1]'(by have := h.es_len; omega)) (setVars ctx names l) [] with h' | h'
  · rw [show evalRec cfg m _ _ _ = _ from h1] at h'
    cases h'
  · exact h'.symm.trans h1

theorem LinSys.scalars (h : LinSys cfg m ctx names es A b) {l : List F} {x : Fin n → ℝ} (hx : VecIs l x) :
    ∃ fx, evalScalars (eval cfg m) es (setVars ctx names l) = .ok fx ∧ VecIs fx (fun i => A.mulVec x i - b i) := by
  unfold evalScalars
  obtain ⟨fx, h1, h2⟩ := mapM_rel (fun r y => Exact.val r = some y) es h.es_len
    (fun i => (eval cfg m i (setVars ctx names l) >>= fun r => (firstScalar r : Out EvalError F))) (fun i => A.mulVec x i - b i)
    (fun i => by
      obtain ⟨r, hr, hv⟩ := h.res l x hx i
      exact ⟨r, by rw [hr]; rfl, hv⟩)
  exact ⟨fx, h1, h2⟩

theorem sumSq_zero (rs : List F) (s : F) (hs : Exact.val s = some (0 : ℝ)) (h : ∀ r ∈ rs, Exact.val r = some (0 : ℝ)) :
    Exact.val (rs.foldl (fun s r => FArith.add s (FArith.powi r 2)) s) = some (0 : ℝ) := by
  induction rs generalizing s with
  | nil => exact hs
  | cons r rs ih =>
    refine ih _ ?_ fun q hq => h q (by simp [hq])
    have := Exact.val_powi (n := 2) (h r (by simp)) (Or.inl (by norm_num))
    have := Exact.val_add hs this
    rw [this]
    norm_num

theorem normSmall_zero (cfg : Cfg) (rs : List F) (h : ∀ r ∈ rs, Exact.val r = some (0 : ℝ)) : normSmall cfg rs = true := by
  have hz : Exact.val (FArith.ofInt 0 : F) = some (0 : ℝ) := by simpa using Exact.val_ofInt (F := F) (K := ℝ) 0
  have hn : Exact.val (norm rs) = some (0 : ℝ) := by
    unfold norm
    rw [ExactReal.val_sqrt (sumSq_zero rs _ hz h) le_rfl, Real.sqrt_zero]
  have heps := val_stepH (F := F) (K := ℝ) cfg
  have hneg : Exact.val (FArith.neg (stepH F cfg)) = some (-(10 : ℝ) ^ (-(cfg.prec : Int))) := by
    rw [Exact.val_neg, heps]
    rfl
  have hpos : (0 : ℝ) < 10 ^ (-(cfg.prec : Int)) := zpow_pos (by norm_num) _
  unfold normSmall
  show (FArith.lt (FArith.neg (stepH F cfg)) (norm rs) && FArith.lt (norm rs) (stepH F cfg)) = true
  rw [Exact.lt_val hneg hn, Exact.lt_val hn heps]
  simpa using hpos

theorem normSmall_lt {cfg : Cfg} {rs : List F} (h : normSmall cfg rs = true) :
    ∀ r ∈ rs, ∃ x : ℝ, Exact.val r = some x ∧ |x| < 10 ^ (-(cfg.prec : Int)) := by
  apply negligible_val
  unfold normSmall at h
  rw [Bool.and_eq_true] at h
  exact ⟨h.2, h.1⟩

theorem VecIs.get {n : Nat} {l : List F} {x : Fin n → ℝ} (h : VecIs l x) {i : Nat} (hi : i < n) :
    ∃ h' : i < l.length, Exact.val l[i] = some (x ⟨i, hi⟩) := ⟨by rw [h.1]; exact hi, h.2 ⟨i, hi⟩⟩

/-- One entry of the Jacobian. -/
def jacEntry (cfg : Cfg) (ev : Evaluator F) (es : List (AST F)) (x : List (Variable F)) (ctx : Context F) (fx : List F)
    (i j : Nat) : Out EvalError F := do
  let others := ((List.range x.length).filter fun k => j != k).filterMap fun k => x[k]?
  let e ← idx es i
  let xj ← idx x j
  let at_ ← Out.unwrap xj.values[0]?
  let fxi ← idx fx i
  let d ← calculateDerivativeNewton cfg ev e xj.name at_ (some (.scalar fxi)) ⟨ctx.vars ++ others, ctx.funs⟩
  Out.unwrap d.getScalar

/-- The Jacobian computed at `x` is `A`, so the Newton step leads to the solution. -/
theorem LinSys.jacobi (h : LinSys cfg m ctx names es A b) (hn : 0 < n)
    (hA : ∀ k (hk : k ≤ n), (A.submatrix (Fin.castLE hk) (Fin.castLE hk)).det ≠ 0)
    {l fx : List F} {x : Fin n → ℝ} (hx : VecIs l x) (hfx : VecIs fx (fun i => A.mulVec x i - b i)) :
    ∃ l' X, jacobiAndGauss cfg (eval cfg (m + 4)) es (assigned names l) ctx fx = .ok (assigned names l') ∧ VecIs l' X ∧
      A.mulVec X = b := by
  have h4 := h.mono (Nat.le_add_right m 4)
  have hll : l.length = names.length := by rw [hx.1, h.names_len]
  have hxlen : (assigned names l).length = n := by simp [assigned, hll, h.names_len]
  have hpos : (10 : ℝ) ^ (-(cfg.prec : Int)) ≠ 0 := zpow_ne_zero _ (by norm_num)
  have hnamej : ∀ (j : Nat) (hj : j < n), ∃ h1 : j < (assigned names l).length, ∃ h2 : j < names.length, ∃ h3 : j < l.length,
      (assigned names l)[j] = ⟨names[j], [.scalar l[j]]⟩ := by
    intro j hj
    refine ⟨by omega, by rw [h.names_len]; exact hj, by rw [hx.1]; exact hj, ?_⟩
    simp [assigned]
  -- one entry of the Jacobian
  have hentry : ∀ i j : Fin n, ∃ d, jacEntry cfg (eval cfg (m + 4)) es (assigned names l) ctx fx i.1 j.1 = .ok d ∧
      Exact.val d = some (A i j) := by
    intro i j
    obtain ⟨g1, g2, g3, g4⟩ := hnamej j.1 j.2
    have hei : i.1 < es.length := by rw [h.es_len]; exact i.2
    obtain ⟨hfi, hfv⟩ := hfx.get i.2
    obtain ⟨hli, hlv⟩ := hx.get j.2
    have hq := Exact.val_add hlv (val_stepH (F := F) (K := ℝ) cfg)
    have hx' : VecIs (l.set j.1 (FArith.add l[j.1] (stepH F cfg))) (Function.update x j (x j + 10 ^ (-(cfg.prec : Int)))) := by
      refine ⟨by simp [hx.1], fun k => ?_⟩
      rw [List.getElem_set]
      by_cases hk : j.1 = k.1
      · have hjk : j = k := Fin.ext hk
        subst hjk
        rw [if_pos rfl, Function.update_self]
        exact hq
      · rw [if_neg hk, Function.update_of_ne (fun hc => hk (by rw [hc]))]
        exact hx.2 k
    obtain ⟨r, hr, hrv⟩ := h4.res _ _ hx' i
    have hmv : A.mulVec (Function.update x j (x j + 10 ^ (-(cfg.prec : Int)))) i = A.mulVec x i + A i j * 10 ^ (-(cfg.prec : Int)) := by
      have : Function.update x j (x j + 10 ^ (-(cfg.prec : Int))) = x + Pi.single j ((10 : ℝ) ^ (-(cfg.prec : Int))) := by
        funext k
        by_cases hk : k = j
        · subst hk
          simp
        · simp [hk]
      rw [this, Matrix.mulVec_add, Matrix.mulVec_single]
      simp
    obtain ⟨dv, hdv, hdv'⟩ := (C30_difference (F := F) (K := ℝ) (a := .scalar r) (b := .scalar fx[i.1])).1 _ _ ⟨_, rfl, hrv⟩ ⟨_, rfl, hfv⟩
    obtain ⟨qv, hqv, q, rfl, hd2⟩ := (C32_divide (a := dv) (s := .scalar (stepH F cfg)) ⟨_, rfl, val_stepH cfg⟩ hpos).1 _ hdv'
    refine ⟨q, ?_, ?_⟩
    · unfold jacEntry
      dsimp only
      rw [others_eq _ _ g1, idx_lt hei, ok_bind, idx_lt g1, ok_bind, g4]
      simp only [List.getElem?_cons_zero, Out.unwrap, ok_bind]
      rw [idx_lt hfi, ok_bind]
      simp only [calculateDerivativeNewton, ok_bind]
      rw [show FArith.powi (FArith.ofInt 10) (-(cfg.prec : Int)) = stepH F cfg from rfl,
        jacobi_context hll h.nodup h.fresh j.1 g2, hr, ok_bind]
      simp only [List.getElem?_cons_zero, Out.unwrap, ok_bind]
      unfold eval
      rw [diffQuotient_eval]
      simp only [diffQuotient, hdv, ok_bind, hqv]
      rfl
    · rw [hd2, hmv]
      congr 1
      simp only [Fin.eta]
      field_simp
      ring
  obtain ⟨jac, hj1, hj2, hj3⟩ := mapM_rel (fun (row : List F) (a : Fin n → ℝ) => VecIs row a) (List.range es.length) (by simp [h.es_len])
    (fun i => (List.range (assigned names l).length).mapM (jacEntry cfg (eval cfg (m + 4)) es (assigned names l) ctx fx i)) A
    (fun i => by
      obtain ⟨row, r1, r2⟩ := mapM_rel (fun (d : F) (a : ℝ) => Exact.val d = some a) (List.range (assigned names l).length) (by simp [hxlen])
        (jacEntry cfg (eval cfg (m + 4)) es (assigned names l) ctx fx i.1) (A i)
        (fun j => by
          simp only [List.getElem_range]
          exact hentry i j)
      refine ⟨row, ?_, r2⟩
      simp only [List.getElem_range]
      exact r1)
  let M : Matrix (Fin n) (Fin (n + 1)) ℝ := fun i => Fin.snoc (A i) (-(A.mulVec x i - b i))
  obtain ⟨u, hu1, hu⟩ := mapM_rel (fun (row : List F) (a : Fin (n + 1) → ℝ) => VecIs row a) (List.range jac.length) (by simp [hj2])
    (fun i => do
      let row ← idx jac i
      let fxi ← idx fx i
      (.ok (row ++ [FArith.mul (FArith.ofInt (-1)) fxi]) : Out EvalError (List F))) M
    (fun i => by
      simp only [List.getElem_range]
      obtain ⟨hfi, hfv⟩ := hfx.get i.2
      rw [idx_lt (by rw [hj2]; exact i.2), ok_bind, idx_lt hfi, ok_bind]
      refine ⟨_, rfl, ?_⟩
      obtain ⟨hr1, hr2⟩ := hj3 i
      refine ⟨by simp [hr1], fun k => ?_⟩
      refine Fin.lastCases ?_ (fun k => ?_) k
      · simp only [M, Fin.snoc_last, Fin.val_last]
        rw [List.getElem_append_right (by omega)]
        have hm : Exact.val (FArith.ofInt (-1) : F) = some (-1 : ℝ) := by simpa using Exact.val_ofInt (F := F) (K := ℝ) (-1)
        have := Exact.val_mul hm hfv
        simpa [hr1] using this
      · simp only [M, Fin.snoc_castSucc, Fin.val_castSucc]
        rw [List.getElem_append_left (by have := k.2; omega)]
        exact hr2 k)
  have hu : MatIs u M := hu
  have hminor : ∀ k (hk : k ≤ n), (M.submatrix (Fin.castLE hk) (Fin.castLE (Nat.le_succ_of_le hk))).det ≠ 0 := by
    intro k hk
    have : M.submatrix (Fin.castLE hk) (Fin.castLE (Nat.le_succ_of_le hk)) = A.submatrix (Fin.castLE hk) (Fin.castLE hk) := by
      funext i j
      show M (Fin.castLE hk i) (Fin.castLE (Nat.le_succ_of_le hk) j) = A (Fin.castLE hk i) (Fin.castLE hk j)
      have : Fin.castLE (Nat.le_succ_of_le hk) j = (Fin.castLE hk j).castSucc := by
        apply Fin.ext
        rfl
      rw [this]
      exact Fin.snoc_castSucc _ _ _
    rw [this]
    exact hA k hk
  obtain ⟨d, D, hg, hd⟩ := (gauss_iff hn hu).2 hminor
  have hsound := gauss_sound hn hu hg hd
  obtain ⟨l', hl1, hl2⟩ := mapM_rel (fun (v : Variable F) (p : Nat × ℝ) => ∃ s h', v = ⟨names[p.1]'h', [.scalar s]⟩ ∧ Exact.val s = some p.2)
    (List.range (assigned names l).length) (by simp [hxlen])
    (fun i => do
      let xi ← idx (assigned names l) i
      let dv ← Out.unwrap (Value.vector d).getVector
      let di ← idx dv i
      let old ← firstScalar xi.values
      (.ok ⟨xi.name, [.scalar (FArith.add di old)]⟩ : Out EvalError (Variable F))) (fun i => (i.1, D i + x i))
    (fun i => by
      obtain ⟨g1, g2, g3, g4⟩ := hnamej i.1 i.2
      obtain ⟨hdi, hdv⟩ := hd.get i.2
      obtain ⟨hli, hlv⟩ := hx.get i.2
      simp only [List.getElem_range]
      rw [idx_lt g1, ok_bind, g4]
      simp only [Value.getVector, Out.unwrap, ok_bind]
      rw [idx_lt hdi, ok_bind]
      exact ⟨_, rfl, _, g2, rfl, Exact.val_add hdv hlv⟩)
  obtain ⟨hll', hall⟩ := hl2
  choose s hs1 hs2 hs3 using hall
  have hvec : VecIs (List.ofFn s) (fun i => D i + x i) := ⟨by simp, fun i => by simpa using hs3 i⟩
  have hl'eq : l' = assigned names (List.ofFn s) := by
    apply List.ext_getElem
    · simp [assigned, hll', h.names_len]
    · intro i h1 h2
      rw [hll'] at h1
      rw [hs2 ⟨i, h1⟩]
      simp [assigned]
  refine ⟨List.ofFn s, _, ?_, hvec, ?_⟩
  · show ((List.range es.length).mapM fun i => (List.range (assigned names l).length).mapM
        (jacEntry cfg (eval cfg (m + 4)) es (assigned names l) ctx fx i)) >>= _ = _
    rw [hj1, ok_bind, hu1, ok_bind, hg, ok_bind, ← hl'eq]
    exact hl1
  · funext i
    have := hsound i
    simp only [M, Fin.snoc_castSucc, Fin.snoc_last] at this
    have e1 : A.mulVec (fun i => D i + x i) i = A.mulVec D i + A.mulVec x i := by
      have : (fun i => D i + x i) = D + x := rfl
      rw [this, Matrix.mulVec_add]
      rfl
    rw [e1]
    have e2 : A.mulVec D i = ∑ k : Fin n, A i k * D k := rfl
    rw [e2, this]
    ring

end
end MUL
