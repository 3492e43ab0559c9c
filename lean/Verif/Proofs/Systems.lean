import Verif.Spec.Systems
import Verif.Proofs.Newton
import Verif.Proofs.Gauss
import Verif.Props.Combinatorics
/-!
# Solving several equations
-/

namespace MUL
open Out Spec FArith Matrix

set_option linter.unusedSectionVars false

/-! ## Elimination -/

section
variable {F : Type} [FNum F] [ExactReal F]

theorem mapM_ofFn {ε β : Type} {n : Nat} (g : Nat → Out ε β) (q : Fin n → β) (h : ∀ i : Fin n, g i = .ok (q i)) :
    (List.range n).mapM g = .ok (List.ofFn q) := by
  obtain ⟨fx, h1, h2, h3⟩ := mapM_rel (fun r y => r = y) (List.range n) (by simp) g q
    (fun i => ⟨q i, by simpa using h i, rfl⟩)
  rw [h1]
  congr 1
  apply List.ext_getElem
  · simp [h2]
  · intro i h4 h5
    simpa using h3 ⟨i, by omega⟩

/-- `[A | -b]` -/
def extended {n : Nat} (A : Matrix (Fin n) (Fin n) ℝ) (b : Fin n → ℝ) : Matrix (Fin n) (Fin (n + 1)) ℝ :=
  fun i => Fin.snoc (A i) (-b i)

theorem extended_minor {n : Nat} (A : Matrix (Fin n) (Fin n) ℝ) (b : Fin n → ℝ) (k : Nat) (hk : k ≤ n) :
    ((extended A b).submatrix (Fin.castLE hk) (Fin.castLE (Nat.le_succ_of_le hk))).det = leadMinor A k hk := by
  unfold leadMinor
  congr 1
  funext i j
  show extended A b (Fin.castLE hk i) (Fin.castLE (Nat.le_succ_of_le hk) j) = A (Fin.castLE hk i) (Fin.castLE hk j)
  have : Fin.castLE (Nat.le_succ_of_le hk) j = (Fin.castLE hk j).castSucc := by
    apply Fin.ext
    rfl
  rw [this]
  exact Fin.snoc_castSucc _ _ _

theorem sysF_coeff {n : Nat} (A : Matrix (Fin n) (Fin n) ℝ) (b : Fin n → ℝ) (i j : Fin n) : sysF (extended A b) i j = A i j := by
  unfold sysF
  rw [dif_pos ⟨i.2, by omega⟩]
  exact Fin.snoc_castSucc (α := fun _ => ℝ) _ _ _

theorem sysF_last {n : Nat} (A : Matrix (Fin n) (Fin n) ℝ) (b : Fin n → ℝ) (i : Fin n) : sysF (extended A b) i n = -b i := by
  unfold sysF
  rw [dif_pos ⟨i.2, by omega⟩]
  exact Fin.snoc_last (α := fun _ => ℝ) _ _

theorem redundant_iff {n : Nat} (A : Matrix (Fin n) (Fin n) ℝ) (b : Fin n → ℝ) :
    DependentRows n (n + 1) (sysF (extended A b)) ↔ Redundant A b := by
  constructor
  · rintro ⟨m, j, hmj, hj, hl, c, hc⟩
    refine ⟨m + 1, by omega, ⟨j, hj⟩, by omega, hmj, fun k' h' => ?_, fun t => c t, fun s => ?_, ?_⟩
    · rw [← extended_minor A b, ← leadDet_sys]
      exact hl k' h'
    · have := hc s (by omega)
      rw [← sysF_coeff A b ⟨j, hj⟩ s, this, ← Fin.sum_univ_eq_sum_range (fun t => c t * sysF (extended A b) t s)]
      exact Finset.sum_congr rfl fun t _ => by rw [← sysF_coeff A b (Fin.castLE _ t) s]; rfl
    · have := hc n (by omega)
      rw [show sysF (extended A b) j n = -b ⟨j, hj⟩ from sysF_last A b ⟨j, hj⟩, ← Fin.sum_univ_eq_sum_range (fun t => c t * sysF (extended A b) t n)] at this
      rw [← neg_neg (b _), this, ← Finset.sum_neg_distrib]
      refine Finset.sum_congr rfl fun t _ => ?_
      rw [show sysF (extended A b) t n = -b (Fin.castLE (by omega) t) from sysF_last A b (Fin.castLE (by omega) t)]
      ring
  · rintro ⟨k, hk, j, hk0, hkj, hl, c, h1, h2⟩
    refine ⟨k - 1, j, by omega, j.2, fun k' h' => ?_, fun t => if h : t < k then c ⟨t, h⟩ else 0, fun s hs => ?_⟩
    · rw [leadDet_sys (extended A b) (show k' ≤ n by omega), extended_minor]
      exact hl k' (by omega)
    · rw [show k - 1 + 1 = k by omega, ← Fin.sum_univ_eq_sum_range (fun t => (if h : t < k then c ⟨t, h⟩ else 0) * sysF (extended A b) t s)]
      rcases Nat.lt_or_ge s n with h | h
      · rw [show sysF (extended A b) j s = A j ⟨s, h⟩ from sysF_coeff A b j ⟨s, h⟩, h1 ⟨s, h⟩]
        refine Finset.sum_congr rfl fun t _ => ?_
        rw [dif_pos t.2, show sysF (extended A b) t s = A (Fin.castLE hk t) ⟨s, h⟩ from sysF_coeff A b (Fin.castLE hk t) ⟨s, h⟩]
      · obtain rfl : s = n := by omega
        rw [sysF_last, h2, ← Finset.sum_neg_distrib]
        refine Finset.sum_congr rfl fun t _ => ?_
        rw [dif_pos t.2, show sysF (extended A b) t s = -b (Fin.castLE hk t) from sysF_last A b (Fin.castLE hk t)]
        ring

/-- Every outcome of one step of the elimination. -/
theorem gauss_cases {n : Nat} (hn : 0 < n) {u : List (List F)} {A : Matrix (Fin n) (Fin n) ℝ} {b : Fin n → ℝ} (hu : MatIs u (extended A b)) :
    (Redundant A b ∧ gaussAlgorithm u = .err .infiniteSolutions) ∨
    (¬ Redundant A b ∧ (∀ k hk, leadMinor A k hk ≠ 0) ∧ ∃ d, gaussAlgorithm u = .ok (.vector d) ∧ VecIs d (-(A⁻¹ *ᵥ b))) ∨
    (¬ Redundant A b ∧ ¬ (∀ k hk, leadMinor A k hk ≠ 0) ∧ ∃ d, gaussAlgorithm u = .ok (.vector d) ∧ d.length = n ∧
      ∃ v ∈ d, (Exact.val v : Option ℝ) = none) := by
  obtain ⟨h1, h2⟩ := gauss_err hn hu
  rw [redundant_iff] at h1 h2
  by_cases hr : Redundant A b
  · exact .inl ⟨hr, h1 hr⟩
  · right
    have hiff := gauss_iff hn hu
    simp only [extended_minor] at hiff
    by_cases hm : ∀ k hk, leadMinor A k hk ≠ 0
    · left
      obtain ⟨d, D, hg, hd⟩ := hiff.2 hm
      have hs := gauss_sound hn hu hg hd
      have hdet : A.det ≠ 0 := by
        have := hm n le_rfl
        unfold leadMinor at this
        simpa using this
      have hAD : A *ᵥ D = -b := by
        funext i
        have := hs i
        simp only [extended, Fin.snoc_castSucc, Fin.snoc_last] at this
        exact this
      have hD : D = -(A⁻¹ *ᵥ b) := by
        have : A⁻¹ *ᵥ (A *ᵥ D) = A⁻¹ *ᵥ (-b) := by rw [hAD]
        rw [Matrix.mulVec_mulVec, Matrix.nonsing_inv_mul A (isUnit_iff_ne_zero.2 hdet), Matrix.one_mulVec, Matrix.mulVec_neg] at this
        exact this
      rw [hD] at hd
      exact ⟨hr, hm, d, hg, hd⟩
    · right
      obtain ⟨v', hv⟩ := h2 hr
      have hlen : (gaussRes n v').length = n := by simp [gaussRes]
      refine ⟨hr, hm, _, hv, hlen, ?_⟩
      by_contra hno
      push Not at hno
      apply hm
      apply hiff.1
      refine ⟨_, fun i => (Exact.val ((gaussRes n v')[i.1]'(by omega))).getD 0, hv, hlen, fun i => ?_⟩
      obtain ⟨y, hy⟩ := Option.ne_none_iff_exists'.1 (hno _ (List.getElem_mem (by omega : i.1 < (gaussRes n v').length)))
      beta_reduce
      rw [hy]
      rfl

/-! ## One step -/

variable {cfg : Cfg} {n : Nat} {ctx : Context F} {names : List Str} {es cs : List (AST F)}

/-- The difference quotient of numbers of the library. -/
def quot (cfg : Cfg) (y y' : F) : F := FArith.div (FArith.add y' (FArith.mul y (FArith.ofInt (-1)))) (stepH F cfg)

/-- The extended matrix of numbers of the library. -/
def extRows (cfg : Cfg) (fx : Fin n → F) (r : Fin n → Fin n → F) : List (List F) :=
  List.ofFn fun i => List.ofFn (fun j => quot cfg (fx i) (r i j)) ++ [FArith.mul (FArith.ofInt (-1)) (fx i)]

/-- The new point. -/
def shifted (l d : List F) : List F := List.zipWith FArith.add d l

theorem jacobi_eq (hnames : names.length = n) (hnd : names.Nodup) (hfresh : ∀ x ∈ names, ∀ v ∈ ctx.vars, v.name ≠ x)
    (hes : es.length = n) (l : List F) (hl : l.length = n) (fx : Fin n → F) (r : Fin n → Fin n → F) (N : Nat)
    (h : ∀ i j : Fin n, ∃ rest, eval cfg (N + 4) (es[i.1]'(by omega)) (setVars ctx names (l.set j (FArith.add (l[j.1]'(by omega)) (stepH F cfg)))) =
      .ok (.scalar (r i j) :: rest)) :
    jacobiAndGauss cfg (eval cfg (N + 4)) es (assigned names l) ctx (List.ofFn fx) =
      (gaussAlgorithm (extRows cfg fx r) >>= fun d => (List.range (assigned names l).length).mapM fun i => do
        let xi ← idx (assigned names l) i
        let dv ← Out.unwrap d.getVector
        let di ← idx dv i
        let old ← firstScalar xi.values
        (.ok ⟨xi.name, [.scalar (add di old)]⟩ : Out EvalError (Variable F))) := by
  have hll : l.length = names.length := by rw [hl, hnames]
  have hxlen : (assigned names l).length = n := by simp [assigned, hll, hnames]
  have hentry : ∀ i j : Fin n, jacEntry cfg (eval cfg (N + 4)) es (assigned names l) ctx (List.ofFn fx) i.1 j.1 = .ok (quot cfg (fx i) (r i j)) := by
    intro i j
    have g1 : j.1 < (assigned names l).length := by omega
    have g2 : j.1 < names.length := by omega
    have g3 : j.1 < l.length := by omega
    have g4 : (assigned names l)[j.1] = ⟨names[j.1], [.scalar l[j.1]]⟩ := by simp [assigned]
    obtain ⟨rest, hr⟩ := h i j
    unfold jacEntry
    dsimp only
    rw [others_eq _ _ g1, idx_lt (by omega : i.1 < es.length), ok_bind, idx_lt g1, ok_bind, g4]
    simp only [List.getElem?_cons_zero, Out.unwrap, ok_bind]
    rw [idx_lt (by simp : i.1 < (List.ofFn fx).length), ok_bind]
    simp only [calculateDerivativeNewton, ok_bind]
    rw [show FArith.powi (FArith.ofInt 10) (-(cfg.prec : Int)) = stepH F cfg from rfl,
      jacobi_context hll hnd hfresh j.1 g2, hr, ok_bind]
    simp only [List.getElem?_cons_zero, Out.unwrap, ok_bind, List.getElem_ofFn]
    unfold eval
    rw [diffQuotient_eval]
    rfl
  have hj : ((List.range es.length).mapM fun i => (List.range (assigned names l).length).mapM
      (jacEntry cfg (eval cfg (N + 4)) es (assigned names l) ctx (List.ofFn fx) i)) = .ok (List.ofFn fun i => List.ofFn fun j => quot cfg (fx i) (r i j)) := by
    rw [hes, hxlen]
    exact mapM_ofFn _ _ fun i => mapM_ofFn _ _ fun j => hentry i j
  show ((List.range es.length).mapM fun i => (List.range (assigned names l).length).mapM
      (jacEntry cfg (eval cfg (N + 4)) es (assigned names l) ctx (List.ofFn fx) i)) >>= _ = _
  rw [hj, ok_bind, List.length_ofFn]
  have hu : (List.range n).mapM (fun i => do
      let row ← idx (List.ofFn fun i => List.ofFn fun j => quot cfg (fx i) (r i j)) i
      let fxi ← idx (List.ofFn fx) i
      (.ok (row ++ [FArith.mul (FArith.ofInt (-1)) fxi]) : Out EvalError (List F))) = .ok (extRows cfg fx r) := by
    refine mapM_ofFn _ _ fun i => ?_
    rw [idx_lt (by simp), ok_bind, idx_lt (by simp), ok_bind]
    simp
  rw [hu, ok_bind]

theorem newPoint_eq (hnames : names.length = n) (l : List F) (hl : l.length = n) (d : List F) (hd : d.length = n) :
    ((List.range (assigned names l).length).mapM fun i => do
        let xi ← idx (assigned names l) i
        let dv ← Out.unwrap (Value.vector d).getVector
        let di ← idx dv i
        let old ← firstScalar xi.values
        (.ok ⟨xi.name, [.scalar (add di old)]⟩ : Out EvalError (Variable F))) = .ok (assigned names (shifted l d)) := by
  have hxlen : (assigned names l).length = n := by simp [assigned, hl, hnames]
  rw [hxlen]
  rw [mapM_ofFn (q := fun i : Fin n => (⟨names[i.1]'(by omega), [.scalar (FArith.add (d[i.1]'(by omega)) (l[i.1]'(by omega)))]⟩ : Variable F))]
  · congr 1
    apply List.ext_getElem
    · simp [assigned, shifted, hl, hd, hnames]
    · intro i h1 h2
      simp [assigned, shifted]
  · intro i
    rw [idx_lt (by omega), ok_bind]
    simp only [Value.getVector, Out.unwrap, ok_bind]
    rw [idx_lt (by omega), ok_bind]
    simp [assigned, firstScalar, Out.unwrap, Value.getScalar]

theorem extRows_is (fx : Fin n → F) (r : Fin n → Fin n → F) (y : Fin n → ℝ) (y' : Fin n → Fin n → ℝ)
    (hfx : ∀ i, Exact.val (fx i) = some (y i)) (hr : ∀ i j, Exact.val (r i j) = some (y' i j)) :
    MatIs (extRows cfg fx r) (extended (fun i j => (y' i j - y i) / 10 ^ (-(cfg.prec : Int))) y) := by
  have hm : Exact.val (FArith.ofInt (-1) : F) = some (-1 : ℝ) := by simpa using Exact.val_ofInt (F := F) (K := ℝ) (-1)
  have hpos : (10 : ℝ) ^ (-(cfg.prec : Int)) ≠ 0 := zpow_ne_zero _ (by norm_num)
  refine ⟨by simp [extRows], fun i => ?_⟩
  simp only [extRows, List.getElem_ofFn]
  refine ⟨by simp, fun k => ?_⟩
  refine Fin.lastCases ?_ (fun k => ?_) k
  · simp only [extended, Fin.snoc_last, Fin.val_last]
    rw [List.getElem_append_right (by simp)]
    have := Exact.val_mul hm (hfx i)
    simpa using this
  · simp only [extended, Fin.snoc_castSucc, Fin.val_castSucc]
    rw [List.getElem_append_left (by simp)]
    simp only [List.getElem_ofFn]
    have := Exact.val_div (Exact.val_add (hr i k) (Exact.val_mul (hfx i) hm)) (val_stepH (F := F) (K := ℝ) cfg) hpos
    unfold quot
    rw [show (⟨k.1, k.2⟩ : Fin n) = k from rfl, this]
    congr 2
    ring

/-! ## Residuals -/

/-- The numbers are the values of the functions at the point. -/
def ValuesAt (x : Point n) (rs : List F) (fs : List (Point n → ℝ)) : Prop := List.Forall₂ (fun r f => Exact.val r = some (f x)) rs fs

theorem scalars_sys {fs : List (Point n → ℝ)} (h : List.Forall₂ (FunctionOn cfg ctx names) es fs) {l : List F} {x : Point n} (hx : VecIs l x) :
    ∃ rs, ValuesAt x rs fs ∧ Eventually fun N => evalScalars (eval cfg N) es (setVars ctx names l) = .ok rs := by
  induction h with
  | nil => exact ⟨[], .nil, 0, fun N _ => rfl⟩
  | @cons e f es fs he h ih =>
    obtain ⟨rs, h1, h2⟩ := ih
    obtain ⟨r, rest, hr1, hr2⟩ := he l x (vecIs_iff.1 hx)
    refine ⟨r :: rs, .cons hr2 h1, (h2.and (finishes_from hr1)).mono fun N hN => ?_⟩
    unfold evalScalars at hN ⊢
    rw [List.mapM_cons, hN.1]
    have h3 : eval cfg N e (setVars ctx names l) = .ok (.scalar r :: rest) := hN.2
    rw [h3]
    rfl

theorem sumSq_eq {x : Point n} {rs : List F} {fs : List (Point n → ℝ)} (h : ValuesAt x rs fs) (s : F) (s' : ℝ) (hs : Exact.val s = some s') :
    Exact.val (rs.foldl (fun s r => FArith.add s (FArith.powi r 2)) s) = some (s' + (fs.map fun f => f x ^ 2).sum) := by
  induction h generalizing s s' with
  | nil => simpa using hs
  | @cons r f rs fs hr h ih =>
    rw [List.foldl_cons, List.map_cons, List.sum_cons, ← add_assoc]
    apply ih
    have := Exact.val_add hs (Exact.val_powi (n := 2) hr (Or.inl (by norm_num)))
    rw [this]
    norm_cast

theorem normSmall_sys {x : Point n} {rs : List F} {fs : List (Point n → ℝ)} (h : ValuesAt x rs fs) :
    normSmall cfg rs = decide (misfit fs x < 10 ^ (-(cfg.prec : Int))) := by
  have heps := val_stepH (F := F) (K := ℝ) cfg
  have hneg : Exact.val (FArith.neg (stepH F cfg)) = some (-(10 : ℝ) ^ (-(cfg.prec : Int))) := by
    rw [Exact.val_neg, heps]
    rfl
  have hz : Exact.val (FArith.ofInt 0 : F) = some (0 : ℝ) := by simpa using Exact.val_ofInt (F := F) (K := ℝ) 0
  have hnn : 0 ≤ (fs.map fun f => f x ^ 2).sum := List.sum_nonneg (by
    intro y hy
    obtain ⟨f, _, rfl⟩ := List.mem_map.1 hy
    positivity)
  have hn : Exact.val (norm rs) = some (misfit fs x) := by
    unfold norm misfit
    rw [ExactReal.val_sqrt (sumSq_eq h _ _ hz) (by linarith), zero_add]
  have hpos : (0 : ℝ) < 10 ^ (-(cfg.prec : Int)) := zpow_pos (by norm_num) _
  unfold normSmall
  show (FArith.lt (FArith.neg (stepH F cfg)) (norm rs) && FArith.lt (norm rs) (stepH F cfg)) = _
  rw [Exact.lt_val hneg hn, Exact.lt_val hn heps]
  have : -(10 : ℝ) ^ (-(cfg.prec : Int)) < misfit fs x := lt_of_lt_of_le (by linarith) (Real.sqrt_nonneg _)
  rw [decide_eq_true this, Bool.true_and]

/-! ## One search -/

/-- The outcome of the inner loop. -/
def Ends (r : Option (List F)) (st : Bool) : Search n → Prop
  | .found x => (∃ l, r = some l ∧ VecIs l x) ∧ st = false
  | .nothing => r = none ∧ st = false
  | .giveUp => r = none ∧ st = true

theorem assigned_values {l' : List F} (hlen : names.length = l'.length) :
    (assigned names l').mapM (fun i => (Out.unwrap i.values[0]? : Out EvalError (Value F))) = .ok (l'.map Value.scalar) := by
  unfold assigned
  induction names generalizing l' with
  | nil =>
    cases l' with
    | nil => rfl
    | cons => simp at hlen
  | cons nm names ih =>
    cases l' with
    | nil => simp at hlen
    | cons a l' =>
      rw [List.zip_cons_cons, List.map_cons, List.mapM_cons, ih (by simpa using hlen)]
      rfl

theorem Eventually.all {n : Nat} {p : Fin n → Nat → Prop} (h : ∀ i, Eventually (p i)) : Eventually fun k => ∀ i, p i k := by
  choose N hN using h
  refine ⟨Finset.univ.sup N, fun m hm i => hN i m (le_trans (Finset.le_sup (Finset.mem_univ i)) hm)⟩

theorem Eventually.of {p : Nat → Prop} (h : ∀ n, p n) : Eventually p := ⟨0, fun n _ => h n⟩

/-- Everything about one step, for large budgets. -/
theorem newton_sys (hn : 0 < n) (hnames : names.length = n) (hnd : names.Nodup) (hfresh : ∀ x ∈ names, ∀ v ∈ ctx.vars, v.name ≠ x)
    {fs gs : List (Point n → ℝ)} (hfl : fs.length = n) (hf : List.Forall₂ (FunctionOn cfg ctx names) es fs)
    (hg : List.Forall₂ (FunctionOn cfg ctx names) cs gs) {l : List F} {x : Point n} (hx : VecIs l x) :
    (misfit fs x < 10 ^ (-(cfg.prec : Int)) → Eventually fun N => newton cfg (eval cfg N) es cs (assigned names l) ctx =
      (if misfit gs x < 10 ^ (-(cfg.prec : Int)) then .ok (.finishedX (assigned names l)) else .err .expressionCheckFailed, ctx)) ∧
    (¬ misfit fs x < 10 ^ (-(cfg.prec : Int)) → Redundant (slopes (10 ^ (-(cfg.prec : Int))) fs x) (values fs x) →
      Eventually fun N => newton cfg (eval cfg N) es cs (assigned names l) ctx = (.err .infiniteSolutions, ctx)) ∧
    (¬ misfit fs x < 10 ^ (-(cfg.prec : Int)) → ¬ Redundant (slopes (10 ^ (-(cfg.prec : Int))) fs x) (values fs x) →
      (∀ k hk, leadMinor (slopes (10 ^ (-(cfg.prec : Int))) fs x) k hk ≠ 0) →
      ∃ l', VecIs l' (x - (slopes (10 ^ (-(cfg.prec : Int))) fs x)⁻¹ *ᵥ values fs x) ∧
      Eventually fun N => newton cfg (eval cfg N) es cs (assigned names l) ctx = (.ok (.nextX (assigned names l')), ctx)) ∧
    (¬ misfit fs x < 10 ^ (-(cfg.prec : Int)) → ¬ Redundant (slopes (10 ^ (-(cfg.prec : Int))) fs x) (values fs x) →
      ¬ (∀ k hk, leadMinor (slopes (10 ^ (-(cfg.prec : Int))) fs x) k hk ≠ 0) →
      Eventually fun N => newton cfg (eval cfg N) es cs (assigned names l) ctx = (.err .naNOrInf, ctx)) := by
  have hes : es.length = n := by rw [hf.length_eq, hfl]
  have hll : l.length = n := hx.1
  have ha : Assigns names (assigned names l) l := ⟨rfl, by rw [hx.1, hnames]⟩
  have hc : Inv ctx names ctx := Inv.refl fun v hv hn => hfresh _ hn v hv rfl
  have e1 : addVars ctx (assigned names l) = setVars ctx names l := ha.setVars ctx
  have i1 : Inv ctx names (addVars ctx (assigned names l)) := hc.addVars_inv ha.names
  have e2 : removeVars (setVars ctx names l) (assigned names l) = ctx := by rw [← e1]; exact i1.remove_eq ha.names
  obtain ⟨rs, hrs, hev⟩ := scalars_sys hf hx
  obtain ⟨ks, hks, hevk⟩ := scalars_sys hg hx
  have hsm := normSmall_sys (cfg := cfg) hrs
  have hsmk := normSmall_sys (cfg := cfg) hks
  have hrl : rs.length = n := by rw [hrs.length_eq, hfl]
  refine ⟨fun hsmall => ?_, ?_⟩
  · refine (hev.and hevk).mono fun N hN => ?_
    unfold newton
    dsimp only
    rw [e1, hN.1]
    simp only [hsm, decide_eq_true hsmall, if_true, e2, e1]
    rw [hN.2]
    simp only [hsmk, decide_eq_true_eq]
    by_cases hempty : ks = []
    · subst hempty
      have : gs = [] := by unfold ValuesAt at hks; simpa using hks
      subst this
      have h0 : misfit ([] : List (Point n → ℝ)) x < 10 ^ (-(cfg.prec : Int)) := by
        simp only [misfit, List.map_nil, List.sum_nil, Real.sqrt_zero]
        exact zpow_pos (by norm_num) _
      simp only [List.isEmpty_nil, if_true, e2, if_pos h0]
    · have : ks.isEmpty = false := by simpa using hempty
      rw [this]
      simp only [Bool.false_eq_true, if_false, e2]
      split <;> rfl
  · -- the slopes
    have hval : ∀ i : Fin n, Exact.val (rs[i.1]'(by omega)) = some (values fs x i) := by
      intro i
      have := List.forall₂_iff_get.1 hrs
      have h3 := this.2 i.1 (by omega) (by omega)
      simp only [List.get_eq_getElem] at h3
      rw [h3]
      simp only [values, nth]
      rw [List.getD_eq_getElem?_getD, List.getElem?_eq_getElem (by omega)]
      rfl
    have hpt : ∀ j : Fin n, VecIs (l.set j.1 (FArith.add (l[j.1]'(by omega)) (stepH F cfg)))
        (Function.update x j (x j + 10 ^ (-(cfg.prec : Int)))) := by
      intro j
      refine ⟨by simp [hx.1], fun k => ?_⟩
      rw [List.getElem_set]
      by_cases hk : j.1 = k.1
      · have hjk : j = k := Fin.ext hk
        subst hjk
        rw [if_pos rfl, Function.update_self]
        exact Exact.val_add (hx.2 j) (val_stepH (F := F) (K := ℝ) cfg)
      · rw [if_neg hk, Function.update_of_ne (fun hc => hk (by rw [hc]))]
        exact hx.2 k
    have hent : ∀ i j : Fin n, ∃ r rest, Finishes (fun N => eval cfg N (es[i.1]'(by omega))
        (setVars ctx names (l.set j.1 (FArith.add (l[j.1]'(by omega)) (stepH F cfg))))) (.ok (.scalar r :: rest)) ∧
        Exact.val r = some (nth fs i.1 (Function.update x j (x j + 10 ^ (-(cfg.prec : Int))))) := by
      intro i j
      have h3 := (List.forall₂_iff_get.1 hf).2 i.1 (by omega) (by omega)
      simp only [List.get_eq_getElem] at h3
      obtain ⟨r, rest, h4, h5⟩ := h3 _ _ (vecIs_iff.1 (hpt j))
      refine ⟨r, rest, h4, ?_⟩
      rw [h5]
      unfold nth
      rw [List.getD_eq_getElem?_getD, List.getElem?_eq_getElem (by omega)]
      rfl
    choose r rest hr1 hr2 using hent
    have hmat : MatIs (extRows cfg (fun i : Fin n => rs[i.1]'(by omega)) r) (extended (slopes (10 ^ (-(cfg.prec : Int))) fs x) (values fs x)) :=
      extRows_is _ _ _ (fun i j => nth fs i.1 (Function.update x j (x j + 10 ^ (-(cfg.prec : Int))))) hval hr2
    have hrs' : List.ofFn (fun i : Fin n => rs[i.1]'(by omega)) = rs := by
      apply List.ext_getElem
      · simp [hrl]
      · intro i h1 h2
        simp
    have hjac : Eventually fun N => jacobiAndGauss cfg (eval cfg N) es (assigned names l) ctx rs =
        (gaussAlgorithm (extRows cfg (fun i : Fin n => rs[i.1]'(by omega)) r) >>= fun d => (List.range (assigned names l).length).mapM fun i => do
          let xi ← idx (assigned names l) i
          let dv ← Out.unwrap d.getVector
          let di ← idx dv i
          let old ← firstScalar xi.values
          (.ok ⟨xi.name, [.scalar (add di old)]⟩ : Out EvalError (Variable F))) := by
      have hall : Eventually fun N => ∀ i j : Fin n, eval cfg N (es[i.1]'(by omega))
          (setVars ctx names (l.set j.1 (FArith.add (l[j.1]'(by omega)) (stepH F cfg)))) = .ok (.scalar (r i j) :: rest i j) :=
        Eventually.all fun i => Eventually.all fun j => finishes_from (hr1 i j)
      refine (hall.and (Eventually.ge 4)).mono ?_
      rintro N ⟨h1, h2⟩
      obtain ⟨m, rfl⟩ := Nat.exists_eq_add_of_le' h2
      have := jacobi_eq hnames hnd hfresh hes l hll (fun i : Fin n => rs[i.1]'(by omega)) r m (fun i j => ⟨_, h1 i j⟩)
      rw [hrs'] at this
      exact this
    have hcases := gauss_cases hn hmat
    refine ⟨fun hns hred => ?_, fun hns hred hmin => ?_, fun hns hred hmin => ?_⟩
    · have hgerr : gaussAlgorithm (extRows cfg (fun i : Fin n => rs[i.1]'(by omega)) r) = .err .infiniteSolutions := by
        rcases hcases with h | h | h
        · exact h.2
        · exact absurd hred h.1
        · exact absurd hred h.1
      refine (hev.and hjac).mono fun N hN => ?_
      unfold newton
      dsimp only
      rw [e1, hN.1]
      simp only [hsm, decide_eq_false hns, Bool.false_eq_true, if_false, e2]
      rw [hN.2, hgerr]
      rfl
    · obtain ⟨d, hgd, hd⟩ : ∃ d, gaussAlgorithm (extRows cfg (fun i : Fin n => rs[i.1]'(by omega)) r) = .ok (.vector d) ∧
          VecIs d (-((slopes (10 ^ (-(cfg.prec : Int))) fs x)⁻¹ *ᵥ values fs x)) := by
        rcases hcases with h | h | h
        · exact absurd h.1 hred
        · exact h.2.2
        · exact absurd hmin h.2.1
      have hsh : VecIs (shifted l d) (x - (slopes (10 ^ (-(cfg.prec : Int))) fs x)⁻¹ *ᵥ values fs x) := by
        refine ⟨by simp [shifted, hll, hd.1], fun i => ?_⟩
        simp only [shifted, List.getElem_zipWith]
        rw [Exact.val_add (hd.2 i) (hx.2 i)]
        congr 1
        simp only [Pi.neg_apply, Pi.sub_apply]
        ring
      refine ⟨shifted l d, hsh, (hev.and hjac).mono fun N hN => ?_⟩
      unfold newton
      dsimp only
      rw [e1, hN.1]
      simp only [hsm, decide_eq_false hns, Bool.false_eq_true, if_false, e2]
      rw [hN.2, hgd, ok_bind, newPoint_eq hnames l hll d hd.1]
      dsimp only
      rw [assigned_values (by rw [hsh.1, hnames])]
      have hany : ((shifted l d).map Value.scalar).any Value.isInfOrNan = false := by
        rw [List.any_eq_false]
        intro v hv
        obtain ⟨a, ha, rfl⟩ := List.mem_map.1 hv
        obtain ⟨i, hi, rfl⟩ := List.getElem_of_mem ha
        rw [infOrNan_iff, hsh.2 ⟨i, by rw [← hsh.1]; exact hi⟩]
        simp
      simp only [hany, Bool.false_eq_true, if_false]
    · obtain ⟨d, hgd, hdl, v, hvd, hv⟩ : ∃ d, gaussAlgorithm (extRows cfg (fun i : Fin n => rs[i.1]'(by omega)) r) = .ok (.vector d) ∧
          d.length = n ∧ ∃ v ∈ d, (Exact.val v : Option ℝ) = none := by
        rcases hcases with h | h | h
        · exact absurd h.1 hred
        · exact absurd h.2.1 hmin
        · exact h.2.2
      refine (hev.and hjac).mono fun N hN => ?_
      unfold newton
      dsimp only
      rw [e1, hN.1]
      simp only [hsm, decide_eq_false hns, Bool.false_eq_true, if_false, e2]
      rw [hN.2, hgd, ok_bind, newPoint_eq hnames l hll d hdl]
      dsimp only
      rw [assigned_values (by simp [shifted, hdl, hll, hnames])]
      have hany : ((shifted l d).map Value.scalar).any Value.isInfOrNan = true := by
        obtain ⟨i, hi, rfl⟩ := List.getElem_of_mem hvd
        rw [List.any_eq_true]
        refine ⟨_, List.mem_map_of_mem (List.getElem_mem (show i < (shifted l d).length by simp [shifted]; omega)), ?_⟩
        simp only [shifted, List.getElem_zipWith]
        rw [infOrNan_iff, Exact.add_none (Or.inl hv)]
        rfl
      simp only [hany, if_true]

theorem loop1_sys (hn : 0 < n) (hnames : names.length = n) (hnd : names.Nodup) (hfresh : ∀ x ∈ names, ∀ v ∈ ctx.vars, v.name ≠ x)
    {fs gs : List (Point n → ℝ)} (hfl : fs.length = n) (hf : List.Forall₂ (FunctionOn cfg ctx names) es fs)
    (hg : List.Forall₂ (FunctionOn cfg ctx names) cs gs) (k : Nat) {l : List F} {x : Point n} (hx : VecIs l x) :
    ∃ (r : Option (List F)) (st : Bool), Ends r st (searchFrom (10 ^ (-(cfg.prec : Int))) fs gs k x) ∧
      Eventually fun N => solveLoop1 cfg (eval cfg N) es cs k (assigned names l) ctx = .ok ⟨r.map asSolution, st, ctx⟩ := by
  induction k generalizing l x with
  | zero => exact ⟨none, false, ⟨rfl, rfl⟩, 0, fun _ _ => rfl⟩
  | succ k ih =>
    obtain ⟨h1, h2, h3, h4⟩ := newton_sys (cfg := cfg) (cs := cs) hn hnames hnd hfresh hfl hf hg hx
    have ha : Assigns names (assigned names l) l := ⟨rfl, by rw [hx.1, hnames]⟩
    rw [searchFrom]
    by_cases hs : misfit fs x < 10 ^ (-(cfg.prec : Int))
    · rw [if_pos hs]
      by_cases hs' : misfit gs x < 10 ^ (-(cfg.prec : Int))
      · rw [if_pos hs']
        refine ⟨some l, false, ⟨⟨l, rfl, hx⟩, rfl⟩, (h1 hs).mono fun N hN => ?_⟩
        unfold solveLoop1
        rw [hN, if_pos hs']
        simp only [ha.result, ok_bind]
        rfl
      · rw [if_neg hs']
        refine ⟨none, false, ⟨rfl, rfl⟩, (h1 hs).mono fun N hN => ?_⟩
        unfold solveLoop1
        rw [hN, if_neg hs']
        rfl
    · rw [if_neg hs]
      by_cases hr : Redundant (slopes (10 ^ (-(cfg.prec : Int))) fs x) (values fs x)
      · rw [if_pos hr]
        refine ⟨none, true, ⟨rfl, rfl⟩, (h2 hs hr).mono fun N hN => ?_⟩
        unfold solveLoop1
        rw [hN]
        rfl
      · rw [if_neg hr]
        by_cases hm : ∀ k hk, leadMinor (slopes (10 ^ (-(cfg.prec : Int))) fs x) k hk ≠ 0
        · rw [if_pos hm]
          obtain ⟨l', hl', hev⟩ := h3 hs hr hm
          obtain ⟨r, st, hr1, hr2⟩ := ih hl'
          refine ⟨r, st, hr1, (hev.and hr2).mono fun N hN => ?_⟩
          unfold solveLoop1
          rw [hN.1]
          exact hN.2
        · rw [if_neg hm]
          refine ⟨none, false, ⟨rfl, rfl⟩, (h4 hs hr hm).mono fun N hN => ?_⟩
          unfold solveLoop1
          rw [hN]
          rfl

theorem start_point (hnames : names.length = n) (j : Int) :
    (names.map fun k => (⟨k, [.scalar (FArith.ofInt j)]⟩ : Variable F)) = assigned names (List.replicate n (FArith.ofInt j)) := by
  apply List.ext_getElem
  · simp [assigned, hnames]
  · intro i h1 h2
    simp [assigned]

theorem loop0_sys (hn : 0 < n) (hnames : names.length = n) (hnd : names.Nodup) (hfresh : ∀ x ∈ names, ∀ v ∈ ctx.vars, v.name ≠ x)
    {fs gs : List (Point n → ℝ)} (hfl : fs.length = n) (hf : List.Forall₂ (FunctionOn cfg ctx names) es fs)
    (hg : List.Forall₂ (FunctionOn cfg ctx names) cs gs) (js : List Int) (acc : List (List F)) (us : List (Point n))
    (hacc : List.Forall₂ VecIs acc us) :
    ∃ ls : List (List F), List.Forall₂ VecIs ls (us ++ foundFrom (10 ^ (-(cfg.prec : Int))) fs gs (js.map fun j : Int => (j : ℝ))) ∧
      Eventually fun N => solveLoop0 cfg (eval cfg N) es cs names js ctx (acc.map asSolution) = .ok (ls.map asSolution) := by
  induction js generalizing acc us with
  | nil => exact ⟨acc, by simpa [foundFrom] using hacc, 0, fun _ _ => rfl⟩
  | cons j js ih =>
    have hx : VecIs (n := n) (List.replicate n (FArith.ofInt j : F)) (fun _ => (j : ℝ)) :=
      ⟨List.length_replicate, fun i => by rw [List.getElem_replicate]; exact Exact.val_ofInt j⟩
    obtain ⟨r, st, h1, h2⟩ := loop1_sys (cfg := cfg) (cs := cs) hn hnames hnd hfresh hfl hf hg 1000 hx
    rw [List.map_cons, foundFrom]
    generalize searchFrom (10 ^ (-(cfg.prec : Int))) fs gs 1000 (fun _ => (j : ℝ)) = s at h1
    cases s with
    | found x =>
      obtain ⟨⟨l, rfl, hl⟩, rfl⟩ := h1
      obtain ⟨ls, h3, h4⟩ := ih (acc ++ [l]) (us ++ [x]) (List.rel_append hacc (.cons hl .nil))
      refine ⟨ls, by simpa using h3, (h2.and h4).mono fun N hN => ?_⟩
      unfold solveLoop0
      have h5 := hN.2
      rw [List.map_append] at h5
      rw [start_point hnames]
      dsimp only
      rw [hN.1, ok_bind]
      exact h5
    | nothing =>
      obtain ⟨rfl, rfl⟩ := h1
      obtain ⟨ls, h3, h4⟩ := ih acc us hacc
      refine ⟨ls, h3, (h2.and h4).mono fun N hN => ?_⟩
      unfold solveLoop0
      rw [start_point hnames]
      dsimp only
      rw [hN.1, ok_bind]
      exact hN.2
    | giveUp =>
      obtain ⟨rfl, rfl⟩ := h1
      refine ⟨acc, by simpa using hacc, h2.mono fun N hN => ?_⟩
      unfold solveLoop0
      rw [start_point hnames]
      dsimp only
      rw [hN, ok_bind]
      rfl

/-! ## The points that are reported -/

theorem forall₂_mergeSort {α β : Type} {R : α → β → Prop} {r : α → α → Bool} {s : β → β → Bool} {l : List α} {us : List β}
    (h : List.Forall₂ R l us) (hrs : ∀ a b u v, R a u → R b v → r a b = s u v) : List.Forall₂ R (l.mergeSort r) (us.mergeSort s) := by
  obtain ⟨ps, h1, h2, h3⟩ : ∃ ps : List (α × β), ps.map Prod.fst = l ∧ ps.map Prod.snd = us ∧ ∀ p ∈ ps, R p.1 p.2 := by
    clear hrs
    induction h with
    | nil => exact ⟨[], rfl, rfl, by simp⟩
    | @cons a u l us hau h ih =>
      obtain ⟨ps, h1, h2, h3⟩ := ih
      refine ⟨(a, u) :: ps, by rw [List.map_cons, h1], by rw [List.map_cons, h2], ?_⟩
      intro p hp
      rcases List.mem_cons.1 hp with rfl | hp
      · exact hau
      · exact h3 p hp
  have m1 := List.map_mergeSort (f := Prod.fst) (r := fun p q : α × β => r p.1 q.1) (s := r) (l := ps) fun a _ b _ => rfl
  have m2 := List.map_mergeSort (f := Prod.snd) (r := fun p q : α × β => r p.1 q.1) (s := s) (l := ps)
    fun a ha b hb => hrs _ _ _ _ (h3 a ha) (h3 b hb)
  rw [← h1, ← h2, ← m1, ← m2, List.forall₂_map_left_iff, List.forall₂_map_right_iff, List.forall₂_same]
  intro p hp
  exact h3 p ((List.mergeSort_perm _ _).mem_iff.1 hp)

theorem sortKey_solution {ε : Type} {l : List F} {x : Point (n + 1)} (h : VecIs l x) :
    ∃ a, (sortKey (asSolution l) : Out ε F) = .ok a ∧ l[0]? = some a ∧ Exact.val a = some (x 0) := by
  match l, h with
  | [], h => exact absurd h.1 (by simp)
  | [a], h => exact ⟨a, rfl, rfl, h.2 0⟩
  | a :: b :: l, h => exact ⟨a, rfl, rfl, h.2 0⟩

theorem sortByKey_sys {ε : Type} {key : F → F} {k : ℝ → ℝ} (hk : ∀ a u, Same a u → Same (key a) (k u)) {ls : List (List F)} {us : List (Point (n + 1))}
    (h : List.Forall₂ VecIs ls us) :
    ∃ ls' : List (List F), (sortByKey key (ls.map asSolution) : Out ε _) = .ok (ls'.map asSolution) ∧
      List.Forall₂ VecIs ls' (us.mergeSort fun a b => decide (k (a 0) ≤ k (b 0))) := by
  let hd : List F → F := fun l => l.headD (FArith.ofInt 0)
  have hhd : ∀ l (x : Point (n + 1)), VecIs l x → (sortKey (asSolution l) : Out ε F) = .ok (hd l) ∧ Same (hd l) (x 0) := by
    intro l x hl
    obtain ⟨a, h1, h2, h3⟩ := sortKey_solution (ε := ε) hl
    have : hd l = a := by
      cases l with
      | nil => simp at h2
      | cons b l => simpa [hd] using h2
    rw [this]
    exact ⟨h1, h3⟩
  have hall : ∀ l ∈ ls, ∃ x : Point (n + 1), VecIs l x := by
    intro l hl
    obtain ⟨i, hi, rfl⟩ := List.getElem_of_mem hl
    exact ⟨_, (List.forall₂_iff_get.1 h).2 i hi (by rw [← h.length_eq]; exact hi)⟩
  refine ⟨ls.mergeSort fun a b => !FArith.lt (key (hd b)) (key (hd a)), ?_, forall₂_mergeSort h ?_⟩
  · unfold sortByKey
    have hkeyed : ((ls.map asSolution).mapM fun v => do
        let k ← (sortKey v : Out ε F)
        (.ok (key k, v) : Out ε (F × Value F))) = .ok (ls.map fun a => (key (hd a), asSolution a)) := by
      clear h
      induction ls with
      | nil => rfl
      | cons a ls ih =>
        obtain ⟨x, hx⟩ := hall a (by simp)
        rw [List.map_cons, List.mapM_cons, ih (fun l hl => hall l (by simp [hl])), (hhd a x hx).1]
        rfl
    rw [hkeyed, ok_bind, if_neg]
    · have := List.map_mergeSort (f := fun a : List F => (key (hd a), asSolution a)) (r := fun a b => !FArith.lt (key (hd b)) (key (hd a)))
        (s := fun a b => !FArith.lt b.1 a.1) (l := ls) (fun a _ b _ => rfl)
      rw [← this, List.map_map]
      rfl
    · rw [Bool.not_eq_true, List.any_eq_false]
      intro kv hkv
      obtain ⟨a, ha, rfl⟩ := List.mem_map.1 hkv
      obtain ⟨x, hx⟩ := hall a ha
      have := (finite_of_val (hk _ _ (hhd a x hx).2)).1
      simp [this]
  · intro a b u v hu hv
    rw [Exact.lt_val (hk _ _ (hhd b v hv).2) (hk _ _ (hhd a u hu).2)]
    by_cases h : k (u 0) ≤ k (v 0)
    · simp [h, not_lt.2 h]
    · simp [h, not_le.1 h]

theorem beqList_iff {p : Nat} (h31 : p < 2 ^ 31) {l l' : List F} {x y : Point n} (h : VecIs l x) (h' : VecIs l' y) :
    Value.beqList (l.map fun i => Value.roundScalar i p) (l'.map fun i => Value.roundScalar i p) = true ↔ ∀ i, SameRounded p (x i) (y i) := by
  induction n generalizing l l' with
  | zero =>
    rw [List.length_eq_zero_iff.1 h.1, List.length_eq_zero_iff.1 h'.1]
    simp [Value.beqList]
  | succ n ih =>
    match l, l', h, h' with
    | [], _, h, _ => have := h.1; simp at this
    | _, [], _, h' => have := h'.1; simp at this
    | a :: l, a' :: l', h, h' =>
      rw [vecIs_cons] at h h'
      simp only [List.map_cons, Value.beqList, Bool.and_eq_true, ih h.2 h'.2]
      have := sameRounded_beq h31 (a := a) (b := a') h.1 h'.1
      simp only [Value.round_small _ h31, Value.roundTo, Value.beq] at this
      rw [this]
      exact (Fin.forall_fin_succ (P := fun i => SameRounded p (x i) (y i))).symm

theorem same_beq {p : Nat} (h31 : p < 2 ^ 31) {l l' : List F} {x y : Point n} (h : VecIs l x) (h' : VecIs l' y) :
    Value.beq ((asSolution l).round p) ((asSolution l').round p) = true ↔ ∀ i, SameRounded p (x i) (y i) := by
  rw [← beqList_iff h31 h h', Value.round_small _ h31, Value.round_small _ h31]
  have hlen : l.length = l'.length := h.1.trans h'.1.symm
  match l, l', hlen with
  | [], [], _ => exact Iff.rfl
  | [a], [a'], _ => simp [asSolution, Value.roundTo, Value.beq, Value.beqList]
  | a :: b :: l, a' :: b' :: l', _ => exact Iff.rfl

open Classical in
theorem dedup_sys {ls acc : List (List F)} {us ac : List (Point n)} (h : List.Forall₂ VecIs ls us) (hacc : List.Forall₂ VecIs acc ac) :
    ∃ ls' : List (List F), dedupResults cfg (ls.map asSolution) (acc.map asSolution) = ls'.map asSolution ∧
      List.Forall₂ VecIs ls' (us.foldl (fun acc x => if ∃ y ∈ acc, ∀ i, SameRounded (cfg.prec - 2) (x i) (y i) then acc else acc ++ [x]) ac) := by
  induction h generalizing acc ac with
  | nil => exact ⟨acc, rfl, hacc⟩
  | @cons a u ls us hau h ih =>
    have hiff : ((acc.map asSolution).any fun j => Value.beq ((asSolution a).round (cfg.prec - 2)) (j.round (cfg.prec - 2))) = true
        ↔ ∃ y ∈ ac, ∀ i, SameRounded (cfg.prec - 2) (u i) (y i) := by
      clear ih
      induction hacc with
      | nil => simp
      | @cons b v acc ac hb hacc ih =>
        rw [List.map_cons, List.any_cons, Bool.or_eq_true, ih, same_beq cfg.small_two hau hb]
        simp
    rw [List.map_cons, dedupResults, List.foldl_cons]
    by_cases hc : ∃ y ∈ ac, ∀ i, SameRounded (cfg.prec - 2) (u i) (y i)
    · rw [if_pos (hiff.2 hc), if_pos hc]
      exact ih hacc
    · rw [if_neg (fun h => hc (hiff.1 h)), if_neg hc]
      have := ih (List.rel_append hacc (.cons hau .nil))
      rw [List.map_append] at this
      exact this

theorem clean_sys {ε : Type} {ls : List (List F)} {us : List (Point (n + 1))} (h : List.Forall₂ VecIs ls us) :
    ∃ ls' : List (List F), (cleanResults cfg (ls.map asSolution) : Out ε _) = .ok (ls'.map asSolution) ∧
      List.Forall₂ VecIs ls' (reportedPoints (cfg.prec - 2) us) := by
  obtain ⟨d, hd1, hd2⟩ := dedup_sys (cfg := cfg) h .nil
  rw [List.map_nil] at hd1
  have hd2 : List.Forall₂ VecIs d (distinctPoints (cfg.prec - 2) us) := hd2
  cases h with
  | nil => exact ⟨[], rfl, by simp [reportedPoints, distinctPoints]⟩
  | @cons a u ls us hau h =>
    have hnm : ∀ m, asSolution a ≠ .matrix m := by
      intro m
      match a with
      | [] => simp [asSolution]
      | [_] => simp [asSolution]
      | _ :: _ :: _ => simp [asSolution]
    have hclean : (cleanResults cfg ((a :: ls).map asSolution) : Out ε _) =
        if d.length > 10 then (do
          let s ← sortByKey FArith.abs (d.map asSolution)
          let s := s.take 10
          sortByKey id s) else .ok (d.map asSolution) := by
      unfold cleanResults
      rw [List.map_cons] at hd1 ⊢
      simp only [hd1, List.length_map]
    rw [hclean]
    unfold reportedPoints
    rw [← hd2.length_eq]
    by_cases hlen : d.length ≤ 10
    · rw [if_neg (by omega), if_pos hlen]
      exact ⟨d, rfl, hd2⟩
    · rw [if_pos (by omega), if_neg hlen]
      obtain ⟨s1, h1, h2⟩ := sortByKey_sys (ε := ε) (key := FArith.abs) (k := fun x => |x|)
        (fun a u h => by unfold Same at *; rw [Exact.val_abs, h]; rfl) hd2
      obtain ⟨s2, h3, h4⟩ := sortByKey_sys (ε := ε) (key := id) (k := id) (fun a u h => h) (List.forall₂_take 10 h2)
      refine ⟨s2, ?_, h4⟩
      rw [h1, ok_bind, ← List.map_take]
      exact h3

/-! ## Choices -/

theorem pick_split {ε α : Type} (es : List α) : ∀ (k d : Nat) (s pre : List α),
    List.Forall₂ (fun is (c : List α × List α) => (splitExprs is d s (pre ++ es) : Out ε _) = .ok (s ++ c.1, pre ++ c.2))
      (combs k (List.range' (d + pre.length) es.length)) (pick k es) := by
  induction es with
  | nil =>
    intro k d s pre
    cases k with
    | zero => exact .cons (by simp [splitExprs]) .nil
    | succ k => exact .nil
  | cons e es ih =>
    intro k d s pre
    cases k with
    | zero => exact .cons (by simp [splitExprs]) .nil
    | succ k =>
      rw [List.length_cons, List.range'_succ, combs, pick]
      refine List.rel_append ?_ ?_
      · rw [List.forall₂_map_left_iff, List.forall₂_map_right_iff]
        have := ih k (d + 1) (s ++ [e]) pre
        rw [show d + 1 + pre.length = d + pre.length + 1 by omega] at this
        refine this.imp fun is c hc => ?_
        unfold splitExprs
        rw [if_neg (by omega), show d + pre.length - d = pre.length by omega, idx_lt (by simp), ok_bind]
        simp only [List.getElem_append_right (le_refl pre.length), Nat.sub_self, List.getElem_cons_zero]
        rw [List.eraseIdx_append_of_length_le (le_refl _), Nat.sub_self, List.eraseIdx_cons_zero, hc]
        simp
      · rw [List.forall₂_map_right_iff]
        have := ih (k + 1) d s (pre ++ [e])
        rw [List.length_append, List.length_singleton, show d + (pre.length + 1) = d + pre.length + 1 by omega] at this
        refine this.imp fun is c hc => ?_
        simpa using hc

theorem pick_rel {α β : Type} {R : α → β → Prop} {es : List α} {fs : List β} (h : List.Forall₂ R es fs) (k : Nat) :
    List.Forall₂ (fun (a : List α × List α) (b : List β × List β) => List.Forall₂ R a.1 b.1 ∧ List.Forall₂ R a.2 b.2 ∧ b.1.length = k)
      (pick k es) (pick k fs) := by
  induction h generalizing k with
  | nil =>
    cases k with
    | zero => exact .cons ⟨.nil, .nil, rfl⟩ .nil
    | succ k => exact .nil
  | @cons e f es fs hef h ih =>
    cases k with
    | zero => exact .cons ⟨.nil, .cons hef h, rfl⟩ .nil
    | succ k =>
      rw [pick, pick]
      refine List.rel_append ?_ ?_
      · rw [List.forall₂_map_left_iff, List.forall₂_map_right_iff]
        exact (ih k).imp fun a b hab => ⟨.cons hef hab.1, hab.2.1, by simp [hab.2.2]⟩
      · rw [List.forall₂_map_left_iff, List.forall₂_map_right_iff]
        exact (ih (k + 1)).imp fun a b hab => ⟨hab.1, .cons hef hab.2.1, hab.2.2⟩

theorem combs_short (k : Nat) (l : List Nat) (h : l.length < k) : combs k l = [] := by
  apply List.eq_nil_of_length_eq_zero
  rw [combs_length, Nat.choose_eq_zero_of_lt h]

theorem combs_full (l : List Nat) : combs l.length l = [l] := by
  induction l with
  | nil => rfl
  | cons a l ih => rw [List.length_cons, combs, ih, combs_short _ _ (by simp)]; rfl

theorem starts_eq : (startValues.map fun j : Int => (j : ℝ)) = starts := by
  unfold startValues starts
  rw [List.map_map]
  congr 1
  funext k
  simp

/-- The loop over the choices. -/
theorem loop_sys (hnames : names.length = n + 1) (hnd : names.Nodup) (hfresh : ∀ x ∈ names, ∀ v ∈ ctx.vars, v.name ≠ x)
    {combos : List (List Nat)} {ps : List (List (AST F) × List (AST F))} {qs : List (List (Point (n + 1) → ℝ) × List (Point (n + 1) → ℝ))}
    (h1 : List.Forall₂ (fun is c => (splitExprs is 0 [] es : Out EvalError _) = .ok c) combos ps)
    (h2 : List.Forall₂ (fun a b => List.Forall₂ (FunctionOn cfg ctx names) a.1 b.1 ∧ List.Forall₂ (FunctionOn cfg ctx names) a.2 b.2 ∧
      b.1.length = n + 1) ps qs) (cb : List (List Nat)) :
    ∃ ls : List (List F), List.Forall₂ VecIs ls (((qs.map fun c => reportedPoints (cfg.prec - 2)
        (foundFrom (10 ^ (-(cfg.prec : Int))) c.1 c.2 starts)).find? fun l => !l.isEmpty).getD []) ∧
      Eventually fun N => findRootsLoop cfg (eval cfg N) ⟨es, cb, ctx, names⟩ combos = .ok (ls.map asSolution) := by
  induction h1 generalizing qs with
  | nil =>
    cases h2
    exact ⟨[], by simp, 0, fun _ _ => rfl⟩
  | @cons is c combos ps hc h1 ih =>
    cases h2 with
    | @cons _ q _ qs hq h2 =>
      obtain ⟨ls, hl1, hl2⟩ := loop0_sys (cfg := cfg) (Nat.succ_pos n) hnames hnd hfresh hq.2.2 hq.1 hq.2.1 startValues [] [] .nil
      rw [List.nil_append, starts_eq] at hl1
      obtain ⟨vs, hv1, hv2⟩ := clean_sys (cfg := cfg) (ε := EvalError) hl1
      rw [List.map_cons, List.find?_cons]
      obtain ⟨ls', h3, h4⟩ := ih h2
      generalize ((qs.map fun c => reportedPoints (cfg.prec - 2)
        (foundFrom (10 ^ (-(cfg.prec : Int))) c.1 c.2 starts)).find? fun l => !l.isEmpty) = later at h3 ⊢
      beta_reduce
      generalize reportedPoints (cfg.prec - 2) (foundFrom (10 ^ (-(cfg.prec : Int))) q.1 q.2 starts) = rp at hv2 ⊢
      by_cases he : vs = []
      · subst he
        have hnil : rp = [] := by simpa using hv2
        subst hnil
        refine ⟨ls', h3, (hl2.and h4).mono fun N hN => ?_⟩
        have h5 : solveLoop0 cfg (eval cfg N) c.1 c.2 names startValues ctx [] = .ok (ls.map asSolution) := hN.1
        rw [findRootsLoop, hc, ok_bind]
        simp only
        rw [h5, ok_bind, hv1, ok_bind]
        simp only [List.map_nil, List.isEmpty_nil, Bool.not_true, Bool.false_eq_true, if_false]
        exact hN.2
      · have hne : rp ≠ [] := by
          intro hc
          rw [hc] at hv2
          exact he (by simpa using hv2)
        refine ⟨vs, ?_, hl2.mono fun N hN => ?_⟩
        · have : (!rp.isEmpty) = true := by simpa using hne
          rw [this]
          exact hv2
        · have h5 : solveLoop0 cfg (eval cfg N) c.1 c.2 names startValues ctx [] = .ok (ls.map asSolution) := hN
          rw [findRootsLoop, hc, ok_bind]
          simp only
          rw [h5, ok_bind, hv1, ok_bind]
          have : (!(vs.map asSolution).isEmpty) = true := by simpa using he
          rw [this]
          rfl

/-- The whole procedure. -/
theorem solve_sys (eqs : List (AST F × AST F)) {fs : List (Point (n + 1) → ℝ)} (hnames : names.length = n + 1) (hnd : names.Nodup)
    (hfresh : ∀ x ∈ names, ∀ v ∈ ctx.vars, v.name ≠ x) (hf : List.Forall₂ (FunctionOn cfg ctx names) (eqs.map residualExpr) fs)
    (hlen : n + 1 ≤ fs.length) :
    ∃ ls : List (List F), List.Forall₂ VecIs ls (solutionsOf (cfg.prec - 2) (10 ^ (-(cfg.prec : Int))) fs) ∧
      Eventually fun N => evalRec cfg N (.equation eqs names) ctx [] = .ok (ls.map asSolution) := by
  have hel : eqs.length = fs.length := by rw [← hf.length_eq]; simp
  -- the choices
  have hcomb : (if names.length < (eqs.map residualExpr).length then generateCombinations (List.range (eqs.map residualExpr).length) names.length []
      else [List.range (eqs.map residualExpr).length]) = combs (n + 1) (List.range (eqs.map residualExpr).length) := by
    split
    · rw [genComb_eq_combs, hnames]
    · have h1 : (eqs.map residualExpr).length = n + 1 := by
        rw [List.length_map] at *
        omega
      rw [h1]
      conv_rhs => rw [show n + 1 = (List.range (n + 1)).length by simp]
      simp only [List.length_range]
      have := combs_full (List.range (n + 1))
      rw [List.length_range] at this
      exact this.symm
  have hsplit := pick_split (ε := EvalError) (eqs.map residualExpr) (n + 1) 0 [] []
  simp only [List.nil_append, List.length_nil, Nat.zero_add, ← List.range_eq_range'] at hsplit
  obtain ⟨ls, hl1, hl2⟩ := loop_sys (cfg := cfg) (ctx := ctx) hnames hnd hfresh
    (hsplit.imp fun is c h => by simpa using h) (pick_rel hf (n + 1)) (combs (n + 1) (List.range (eqs.map residualExpr).length))
  refine ⟨ls, hl1, ?_⟩
  -- the probe
  have hpos : 0 < (eqs.map residualExpr).length := by rw [List.length_map]; omega
  have hx : VecIs (List.replicate names.length (FArith.ofDec 821785 (-5) : F)) (fun (_ : Fin (n + 1)) => (821785 : ℕ) * (10 : ℝ) ^ (-5 : Int)) :=
    ⟨by simp [hnames], fun i => by rw [List.getElem_replicate]; exact Exact.val_ofDec _ _⟩
  obtain ⟨y, rest, hy, _⟩ : ∃ y rest, Finishes (fun N => eval cfg N ((eqs.map residualExpr)[0]'hpos)
      (setVars ctx names (List.replicate names.length (FArith.ofDec 821785 (-5))))) (.ok (.scalar y :: rest)) ∧ True := by
    have h3 := (List.forall₂_iff_get.1 hf).2 0 hpos (by omega)
    obtain ⟨r, rest, h4, _⟩ := h3 _ _ (vecIs_iff.1 hx)
    exact ⟨r, rest, h4, trivial⟩
  have hset : names.foldl (fun c i => c.addVar ⟨i, [.scalar (FArith.ofDec 821785 (-5))]⟩) ctx
      = setVars ctx names (List.replicate names.length (FArith.ofDec 821785 (-5) : F)) := by
    unfold setVars
    have hz : names.zip (List.replicate names.length (FArith.ofDec 821785 (-5) : F))
        = names.map fun i => (i, FArith.ofDec 821785 (-5)) := by
      apply List.ext_getElem
      · simp
      · intro i h1 h2
        simp
    rw [hz, List.foldl_map]
  have hrem : names.foldl (fun c i => c.removeVar i) (setVars ctx names (List.replicate names.length (FArith.ofDec 821785 (-5) : F))) = ctx := by
    have ha : Assigns names (assigned names (List.replicate names.length (FArith.ofDec 821785 (-5) : F))) _ := ⟨rfl, by simp⟩
    have i0 : Inv ctx names ctx := Inv.refl (fun v hv hn => hfresh _ hn v hv rfl)
    have i1 := i0.addVars_inv ha.names
    rw [← ha.setVars]
    have := i1.remove_eq ha.names
    unfold removeVars at this
    conv at this => lhs; rw [← List.foldl_map (f := fun v : Variable F => v.name) (g := fun c i => Context.removeVar c i)]
    rw [ha.names] at this
    exact this
  obtain ⟨N, hN⟩ := Eventually.and hl2 (finishes_from hy)
  refine ⟨N + 1, fun m hm => ?_⟩
  obtain ⟨k, rfl⟩ := Nat.exists_eq_add_of_le' (le_trans (Nat.le_add_left 1 N) hm)
  obtain ⟨h1, h2⟩ := hN k (by omega)
  have h2 : eval cfg k ((eqs.map residualExpr)[0]'hpos) (setVars ctx names (List.replicate names.length (FArith.ofDec 821785 (-5)))) =
    .ok (.scalar y :: rest) := h2
  have hnew : RootFinder.new (eval cfg k) (eqs.map residualExpr) ctx names =
      .ok ⟨eqs.map residualExpr, combs (n + 1) (List.range (eqs.map residualExpr).length), ctx, names⟩ := by
    unfold RootFinder.new
    rw [if_neg (by omega), if_neg (by simp [AST.isOperation, residualExpr]), if_neg, if_neg (by rw [hf.length_eq]; omega)]
    · dsimp only
      rw [hset, idx_lt hpos, ok_bind, h2, ok_bind]
      simp only [List.getElem?_cons_zero, Out.unwrap, ok_bind, hrem]
      rw [hcomb]
    · rw [List.any_eq_true]
      rintro ⟨x, hx, hc⟩
      simp only [List.contains_eq_mem, List.mem_map, decide_eq_true_eq] at hc
      obtain ⟨v, hv, hvx⟩ := hc
      exact hfresh x hx v hv hvx
  rw [evalRec.eq_def]
  simp only [solveEquations]
  have hev : (fun a c => evalRec cfg k a c []) = (eval cfg k : Evaluator F) := rfl
  have hres : (eqs.map fun i => AST.simple .sub i.1 i.2) = eqs.map residualExpr := rfl
  rw [hev, hres, hnew, ok_bind]
  exact h1

end
end MUL
