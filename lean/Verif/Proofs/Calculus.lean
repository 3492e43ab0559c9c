import Verif.Spec.Calculus
import Verif.Props.EvalCtx
import Verif.Props.Eval
import Verif.Props.Arith
import Mathlib.Algebra.Module.Basic
import Mathlib.Algebra.BigOperators.Group.Finset.Basic
/-!
# The integration loop in exact arithmetic
-/

namespace MUL
open Out Spec

set_option linter.unusedSectionVars false

section
variable {F : Type} [FArith F] {K : Type} [Field K] [LinearOrder K] [IsStrictOrderedRing K] [FloorRing K] [Exact F K]

theorem val_step_count (cfg : Cfg) (hp : 3 ≤ cfg.prec) :
    Exact.val (FArith.powi (FArith.ofInt 10) ((cfg.prec : Int) - 3) : F) = some (((10 ^ (cfg.prec - 3) : Nat) : K)) := by
  have h10 : Exact.val (FArith.ofInt 10 : F) = some (10 : K) := by simpa using Exact.val_ofInt (F := F) (K := K) 10
  rw [Exact.val_powi h10 (Or.inl (by omega))]
  congr 1
  obtain ⟨k, hk⟩ : ∃ k, cfg.prec = k + 3 := ⟨cfg.prec - 3, by omega⟩
  rw [hk]
  push_cast
  rw [show (k : Int) + 3 - 3 = (k : Int) by omega, zpow_natCast]

theorem val_stepFrom {lb dx : F} {a d : K} (hlb : Exact.val lb = some a) (hdx : Exact.val dx = some d) (i : Nat) :
    Exact.val (stepFrom lb dx i) = some (a + i * d) := by
  induction i with
  | zero => simpa [stepFrom] using hlb
  | succ i ih =>
    rw [stepFrom, Exact.val_add ih hdx]
    push_cast
    congr 1
    ring

/-- The points of the loop stay below the upper bound exactly `N` times. -/
theorem steps_exact {lb ub dx : F} {a b : K} {N : Nat} (hN : 0 < N) (hlb : Exact.val lb = some a)
    (hub : Exact.val ub = some b) (hab : a < b) (hdx : Exact.val dx = some ((b - a) / N)) (i : Nat) :
    FArith.lt (stepFrom lb dx i) ub = decide (i < N) := by
  have hNK : (0 : K) < (N : K) := by exact_mod_cast hN
  rw [Exact.lt_val (val_stepFrom hlb hdx i) hub]
  apply decide_eq_decide.2
  rw [← lt_sub_iff_add_lt', mul_div_assoc', div_lt_iff₀ hNK, mul_comm (b - a), mul_lt_mul_iff_left₀ (sub_pos.2 hab)]
  exact Nat.cast_lt

end

section
variable {F : Type} [FNum F]

omit [FNum F] in
/-- Inside an integral the integration variable is set as by `add_var`. -/
theorem sample_agree {ctx : Context F} (hd : NoDupVars ctx) (x : Str) (v : Variable F) (hv : v.name = x) :
    AgreeOn (fun _ => True) (fun _ => True) ⟨eraseFirstVar ctx.vars x ++ [v], ctx.funs⟩ (ctx.addVar v) := by
  refine ⟨fun n _ => ?_, fun n _ => rfl⟩
  simp only [Context.addVar, entries_append, entries_filter_ne, entries_eraseFirst, hv]
  congr 1
  split
  · rename_i h
    subst h
    rw [entries_of_nodup hd ctx.funs]
    split <;> rfl
  · rfl

theorem sample_eval (cfg : Cfg) (n : Nat) (e : AST F) {ctx : Context F} (hd : NoDupVars ctx) (x : Str) (p : F) :
    evalRec cfg n e ⟨eraseFirstVar ctx.vars x ++ [⟨x, [.scalar p]⟩], ctx.funs⟩ [] = eval cfg n e (setVar ctx x p) :=
  evalRec_ext cfg n (mentions_all e) (sample_agree hd x _ rfl) (fun _ _ _ _ => mentions_any _) []

theorem eval_mono {cfg : Cfg} {e : AST F} {c : Context F} {r : Out EvalError (List (Value F))}
    (h : Finishes (fun n => eval cfg n e c) r) : ∃ n, ∀ m ≥ n, eval cfg m e c = r :=
  finishes_from h

variable {K : Type} [Field K] [LinearOrder K] [IsStrictOrderedRing K] [FloorRing K] [Exact F K]
variable {M : Type} [AddCommMonoid M] [SMul K M]

/-- Values standing for elements of `M`: sums and multiples are computed by the library's `+` and `*`. -/
structure Linear (R : Value F → M → Prop) : Prop where
  add : ∀ {a b x y}, R a x → R b y → ∃ v, vAdd a b = .ok v ∧ R v (x + y)
  smul : ∀ {a x} {d : F} {t : K}, R a x → Exact.val d = some t → ∃ v, vMult a (.scalar d) = .ok v ∧ R v (t • x)

theorem forall₂_ofFn {α β : Type} {R : α → β → Prop} {m : Nat} {l : List α} {S : Fin m → β} :
    List.Forall₂ R l (List.ofFn S) ↔ ∃ h : l.length = m, ∀ (i : Nat) (hi : i < m), R (l[i]'(h ▸ hi)) (S ⟨i, hi⟩) := by
  rw [List.forall₂_iff_get]
  simp only [List.length_ofFn, List.get_eq_getElem, List.getElem_ofFn]
  constructor
  · rintro ⟨h, h'⟩
    exact ⟨h, fun i hi => h' i (h ▸ hi) hi⟩
  · rintro ⟨h, h'⟩
    exact ⟨h, fun i h1 h2 => h' i h2⟩

theorem accumulate_nil (es : List (Value F)) : accumulate [] es = .ok es := by
  induction es with
  | nil => rfl
  | cons e es ih => rw [accumulate, ih]; rfl

theorem accumulate_linear {R : Value F → M → Prop} (hR : Linear (K := K) R) {sums es : List (Value F)} {S T : List M}
    (hS : List.Forall₂ R sums S) (hT : List.Forall₂ R es T) (hlen : S.length = T.length) :
    ∃ r, accumulate sums es = .ok r ∧ List.Forall₂ R r (List.zipWith (· + ·) S T) := by
  induction hS generalizing es T with
  | nil =>
    cases hT with
    | nil => exact ⟨[], rfl, .nil⟩
    | cons => simp at hlen
  | cons h hs ih =>
    cases hT with
    | nil => simp at hlen
    | cons h' ht =>
      obtain ⟨r, hr, hr'⟩ := ih ht (by simpa using hlen)
      obtain ⟨v, hv, hv'⟩ := hR.add h h'
      exact ⟨v :: r, by rw [accumulate, hv, hr]; rfl, .cons hv' hr'⟩

theorem scale_linear {R : Value F → M → Prop} (hR : Linear (K := K) R) {sums : List (Value F)} {S : List M}
    (hS : List.Forall₂ R sums S) {d : F} {t : K} (hd : Exact.val d = some t) :
    ∃ r, (sums.mapM fun s => liftMath (vMult s (.scalar d))) = .ok r ∧ List.Forall₂ R r (S.map (t • ·)) := by
  induction hS with
  | nil => exact ⟨[], rfl, .nil⟩
  | cons h hs ih =>
    obtain ⟨r, hr, hr'⟩ := ih
    obtain ⟨v, hv, hv'⟩ := hR.smul h hd
    exact ⟨v :: r, by rw [List.mapM_cons, hv, hr]; rfl, .cons hv' hr'⟩

/-- The point at which the integrand is evaluated in step `i`. -/
def samplePoint (lb dx : F) (i : Nat) : F :=
  FArith.div (FArith.add (stepFrom lb dx i) (FArith.sub (stepFrom lb dx i) dx)) (FArith.ofInt 2)

/-- Remaining part of the loop. -/
theorem integralLoop_rest {R : Value F → M → Prop} (hR : Linear (K := K) R) {ev : Evaluator F} {e : AST F} {x : Str}
    {vars : List (Variable F)} {funs : List (Function F)} {lb ub dx : F} {N m : Nat}
    (hlt : ∀ i < N, FArith.lt (stepFrom lb dx i) ub = true) (hend : FArith.lt (stepFrom lb dx N) ub = false)
    (g : Nat → Fin m → M)
    (hev : ∀ i < N, ∃ vs, ev e ⟨vars ++ [⟨x, [.scalar (samplePoint lb dx i)]⟩], funs⟩ = .ok vs ∧ ListIs R vs (g i))
    (fuel j i : Nat) (hij : i + j = N) (hfuel : j ≤ fuel)
    (sums : List (Value F)) (S : Fin m → M) (hS : ListIs R sums S) :
    ∃ r, integralLoop ev e x vars funs ub dx fuel (stepFrom lb dx i) sums = .ok r ∧
      ListIs R r (fun k => S k + ((List.range j).map fun l => g (i + l) k).sum) := by
  induction j generalizing fuel i sums S with
  | zero =>
    have hi : i = N := by omega
    subst hi
    refine ⟨sums, ?_, by simpa using hS⟩
    cases fuel <;> simp [integralLoop, hend]
  | succ j ih =>
    obtain ⟨fuel, rfl⟩ : ∃ k, fuel = k + 1 := ⟨fuel - 1, by omega⟩
    have hiN : i < N := by omega
    obtain ⟨vs, hvs, hvs'⟩ := hev i hiN
    obtain ⟨s, hs, hs'⟩ := accumulate_linear hR hS hvs' (by simp)
    have hs'' : ListIs R s (fun k => S k + g i k) := by
      have : List.zipWith (· + ·) (List.ofFn S) (List.ofFn (g i)) = List.ofFn (fun k => S k + g i k) := by
        apply List.ext_getElem <;> simp
      rw [this] at hs'
      exact hs'
    obtain ⟨r, hr, hr'⟩ := ih fuel (i + 1) (by omega) (by omega) s _ hs''
    refine ⟨r, ?_, ?_⟩
    · rw [integralLoop, if_pos (hlt i hiN)]
      unfold samplePoint at hvs
      rw [hvs, ok_bind, hs, ok_bind]
      exact hr
    · have heq : (fun k => S k + g i k + ((List.range j).map fun l => g (i + 1 + l) k).sum) =
          (fun k => S k + ((List.range (j + 1)).map fun l => g (i + l) k).sum) := by
        funext k
        rw [List.range_succ_eq_map, List.map_cons, List.sum_cons, List.map_map, add_assoc]
        congr 2
        refine congrArg List.sum ?_
        apply List.map_congr_left
        intro l _
        simp only [Function.comp]
        rw [show i + 1 + l = i + l.succ by omega]
      rw [← heq]
      exact hr'

/-- The whole loop, from the first point with no sums yet. -/
theorem integralLoop_start {R : Value F → M → Prop} (hR : Linear (K := K) R) {ev : Evaluator F} {e : AST F} {x : Str}
    {vars : List (Variable F)} {funs : List (Function F)} {lb ub dx : F} {N m : Nat} (hpos : 0 < N)
    (hlt : ∀ i < N, FArith.lt (stepFrom lb dx i) ub = true) (hend : FArith.lt (stepFrom lb dx N) ub = false)
    (g : Nat → Fin m → M)
    (hev : ∀ i < N, ∃ vs, ev e ⟨vars ++ [⟨x, [.scalar (samplePoint lb dx i)]⟩], funs⟩ = .ok vs ∧ ListIs R vs (g i))
    (fuel : Nat) (hfuel : N ≤ fuel) :
    ∃ r, integralLoop ev e x vars funs ub dx fuel lb [] = .ok r ∧
      ListIs R r (fun k => ((List.range N).map fun l => g l k).sum) := by
  obtain ⟨N, rfl⟩ : ∃ k, N = k + 1 := ⟨N - 1, by omega⟩
  obtain ⟨fuel, rfl⟩ : ∃ k, fuel = k + 1 := ⟨fuel - 1, by omega⟩
  obtain ⟨vs, hvs, hvs'⟩ := hev 0 hpos
  obtain ⟨r, hr, hr'⟩ := integralLoop_rest hR hlt hend g hev fuel N 1 (by omega) (by omega) vs _ hvs'
  refine ⟨r, ?_, ?_⟩
  · rw [integralLoop]
    have h0 := hlt 0 hpos
    unfold samplePoint at hvs
    simp only [stepFrom] at h0 hvs hr
    rw [if_pos h0, hvs, ok_bind, accumulate_nil, ok_bind, hr]
  · have heq : (fun k => g 0 k + ((List.range N).map fun l => g (1 + l) k).sum) =
        (fun k => ((List.range (N + 1)).map fun l => g l k).sum) := by
      funext k
      rw [List.range_succ_eq_map, List.map_cons, List.sum_cons, List.map_map]
      congr 3
      funext l
      simp only [Function.comp]
      rw [show 1 + l = l.succ by omega]
    rw [← heq]
    exact hr'

theorem val_samplePoint {lb dx : F} {a d : K} (hlb : Exact.val lb = some a) (hdx : Exact.val dx = some d) (i : Nat) :
    Exact.val (samplePoint lb dx i) = some (a + ((i : K) - 1 / 2) * d) := by
  have hb := val_stepFrom hlb hdx i
  have h2 : Exact.val (FArith.ofInt 2 : F) = some (2 : K) := by simpa using Exact.val_ofInt (F := F) (K := K) 2
  rw [samplePoint, Exact.val_div (Exact.val_add hb (Exact.val_sub hb hdx)) h2 (by norm_num)]
  congr 1
  ring

/-- Finitely many evaluations that finish have a common budget. -/
theorem common_budget {α : Type} (P : Nat → α → Prop) (h : α → Nat → Prop) (N : Nat)
    (hmono : ∀ i < N, ∃ a, P i a ∧ ∃ n, ∀ k ≥ n, h a k) : ∃ n, ∀ i < N, ∃ a, P i a ∧ ∀ k ≥ n, h a k := by
  induction N with
  | zero => exact ⟨0, by omega⟩
  | succ N ih =>
    obtain ⟨n, hn⟩ := ih fun i hi => hmono i (by omega)
    obtain ⟨a, ha, n', hn'⟩ := hmono N (by omega)
    refine ⟨max n n', fun i hi => ?_⟩
    by_cases hi' : i = N
    · subst hi'
      exact ⟨a, ha, fun k hk => hn' k (by omega)⟩
    · obtain ⟨a, ha, h'⟩ := hn i (by omega)
      exact ⟨a, ha, fun k hk => h' k (by omega)⟩

/-- One integral with scalar bounds. -/
theorem calculateIntegral_exact {R : Value F → M → Prop} (hR : Linear (K := K) R) (cfg : Cfg) (hprec : 3 ≤ cfg.prec)
    {ctx : Context F} (hd : NoDupVars ctx) {x : Str} {e : AST F} {m : Nat} {f : Fin m → K → M} {a b : K}
    (he : ComputesOn (SamplePoint (10 ^ (cfg.prec - 3)) (min a b) (max a b)) R cfg ctx x e f) {l u : F} (hl : Exact.val l = some a) (hu : Exact.val u = some b)
    (hab : a ≠ b) :
    ∃ r n, (∀ k ≥ n, calculateIntegral cfg (fun a c => evalRec cfg k a c []) k e x (.scalar l) (.scalar u) ctx = .ok r) ∧
      ListIs R r (fun i => riemann (10 ^ (cfg.prec - 3)) (f i) (min a b) (max a b)) := by
  set N := 10 ^ (cfg.prec - 3) with hNdef
  have hNpos : 0 < N := by positivity
  have hNK : (0 : K) < (N : K) := by exact_mod_cast hNpos
  obtain ⟨lb, hlb⟩ : ∃ q, q = if FArith.lt u l then u else l := ⟨_, rfl⟩
  obtain ⟨ub, hub⟩ : ∃ q, q = if FArith.lt u l then l else u := ⟨_, rfl⟩
  have hlb' : Exact.val lb = some (min a b) := by
    rw [hlb, Exact.lt_val hu hl]
    rcases lt_or_ge b a with h | h
    · simp [h, hu, min_eq_right h.le]
    · simp [not_lt.2 h, hl, min_eq_left h]
  have hub' : Exact.val ub = some (max a b) := by
    rw [hub, Exact.lt_val hu hl]
    rcases lt_or_ge b a with h | h
    · simp [h, hl, max_eq_left h.le]
    · simp [not_lt.2 h, hu, max_eq_right h]
  have hlt : min a b < max a b := min_lt_max.2 hab
  obtain ⟨dx, hdxdef⟩ : ∃ q, q = FArith.div (FArith.sub ub lb) (FArith.powi (FArith.ofInt 10) ((cfg.prec : Int) - 3)) :=
    ⟨_, rfl⟩
  have hdx : Exact.val dx = some ((max a b - min a b) / N) := by
    rw [hdxdef]
    exact Exact.val_div (Exact.val_sub hub' hlb') (val_step_count cfg hprec) hNK.ne'
  have hsteps := steps_exact hNpos hlb' hub' hlt hdx
  obtain ⟨n, hn⟩ := common_budget (N := N) (α := Nat × List (Value F))
    (fun i q => q.1 = i ∧ ListIs R q.2 fun j => f j (min a b + ((i : K) - 1 / 2) * ((max a b - min a b) / N)))
    (fun q k => eval cfg k e (setVar ctx x (samplePoint lb dx q.1)) = .ok q.2)
    (fun i hi => by
      obtain ⟨vs, h1, h2⟩ := he _ _ (val_samplePoint hlb' hdx i) ⟨i, hi, rfl⟩
      exact ⟨(i, vs), ⟨rfl, h2⟩, eval_mono h1⟩)
  -- the loop, with any budget from `max n N` on
  have hbeq : FArith.beq l u = false := by rw [Exact.beq_val hl hu]; simpa using hab
  have hloop : ∀ k ≥ max n N, ∃ r, integralLoop (fun a c => evalRec cfg k a c []) e x (eraseFirstVar ctx.vars x) ctx.funs ub dx
      k lb [] = .ok r ∧ ListIs R r (fun j => ((List.range N).map fun (l : Nat) =>
        f j (min a b + ((l : K) - 1 / 2) * ((max a b - min a b) / N))).sum) := by
    intro k hk
    refine integralLoop_start hR hNpos (fun i hi => by rw [hsteps]; simpa using hi) (by rw [hsteps]; simp)
      (fun i j => f j (min a b + ((i : K) - 1 / 2) * ((max a b - min a b) / N))) ?_ k (by omega)
    intro i hi
    obtain ⟨⟨i', vs⟩, ⟨hi', h1⟩, h2⟩ := hn i hi
    simp only at hi' h1 h2
    subst hi'
    exact ⟨vs, by rw [sample_eval cfg k e hd]; exact h2 k (by omega), h1⟩
  obtain ⟨r, hr, hr'⟩ := hloop (max n N) (Nat.le_refl _)
  obtain ⟨q, hq, hq'⟩ := scale_linear hR hr' hdx
  have hcalc : ∀ k ≥ max n N, calculateIntegral cfg (fun a c => evalRec cfg k a c []) k e x (.scalar l) (.scalar u) ctx =
      .ok q := by
    intro k hk
    have hle := integralLoop_le (n := max n N) (m := k) (fun a c => evalRec_le cfg hk a c []) e x (eraseFirstVar ctx.vars x)
      ctx.funs ub dx hk lb []
    have := hle.eq_of_ne (by rw [hr]; simp)
    unfold calculateIntegral
    simp only [hbeq, Bool.false_eq_true, if_false, ← hlb, ← hub, ← hdxdef]
    rw [← this, hr, ok_bind, hq]
  refine ⟨q, max n N, hcalc, ?_⟩
  unfold ListIs
  convert hq' using 1
  rw [List.map_ofFn]
  rfl

theorem linear_scalar : Linear (F := F) (K := K) (M := K) IsScalar where
  add := by
    rintro a b x y ⟨a, rfl, ha⟩ ⟨b, rfl, hb⟩
    exact ⟨_, rfl, _, rfl, Exact.val_add ha hb⟩
  smul := by
    rintro a x d t ⟨a, rfl, ha⟩ hd
    exact ⟨_, rfl, _, rfl, by rw [Exact.val_mul ha hd, smul_eq_mul, mul_comm]⟩

theorem linear_vector {n : Nat} : Linear (F := F) (K := K) (M := Fin n → K) IsVector where
  add := fun ha hb => C30_sum.2.1 n _ _ ha hb
  smul := by
    intro a x d t ha hd
    obtain ⟨v, hv, hv'⟩ := (C32_scale (a := a) (s := .scalar d) ⟨d, rfl, hd⟩).2.1 n x ha
    rw [C32_either_side d a (by obtain ⟨l, rfl, _⟩ := ha; simp [kind])] at hv
    exact ⟨v, hv, hv'⟩

theorem linear_matrix {r c : Nat} : Linear (F := F) (K := K) (M := Matrix (Fin (r + 1)) (Fin c) K) IsMatrix where
  add := fun ha hb => C30_sum.2.2 r c _ _ ha hb
  smul := by
    intro a x d t ha hd
    obtain ⟨v, hv, hv'⟩ := (C32_scale (a := a) (s := .scalar d) ⟨d, rfl, hd⟩).2.2 _ c x ha
    rw [C32_either_side d a (by obtain ⟨l, rfl, _⟩ := ha; simp [kind])] at hv
    exact ⟨v, hv, hv'⟩

end
end MUL
