import Verif.Spec.Certain
import Verif.Props.Shapes
import Verif.Props.Counts
/-!
# C104: expressions whose evaluation cannot fail
-/

set_option linter.unusedSectionVars false

namespace MUL
open Out Spec

/-- From some budget on, the outcome is one value, which satisfies `P`. -/
def Settles {ε α : Type} (x : Nat → Out ε α) (P : α → Prop) : Prop := ∃ n a, (∀ m ≥ n, x m = .ok a) ∧ P a

section settles
variable {ε α β : Type}

theorem Settles.ok {P : α → Prop} {x : Nat → Out ε α} {a : α} (h : ∀ n, x n = .ok a) (ha : P a) : Settles x P := ⟨0, a, fun m _ => h m, ha⟩

theorem Settles.mono {P Q : α → Prop} {x : Nat → Out ε α} (h : Settles x P) (hpq : ∀ a, P a → Q a) : Settles x Q := by
  obtain ⟨n, a, h1, h2⟩ := h
  exact ⟨n, a, h1, hpq a h2⟩

theorem Settles.bind {P : α → Prop} {Q : β → Prop} {x : Nat → Out ε α} {f : Nat → α → Out ε β} (h : Settles x P)
    (hf : ∀ a, P a → Settles (fun n => f n a) Q) : Settles (fun n => x n >>= f n) Q := by
  obtain ⟨n, a, h1, h2⟩ := h
  obtain ⟨k, b, h3, h4⟩ := hf a h2
  refine ⟨max n k, b, fun m hm => ?_, h4⟩
  beta_reduce
  rw [h1 m (by omega), ok_bind]
  exact h3 m (by omega)

theorem Settles.mapM {P : α → β → Prop} {f : Nat → α → Out ε β} (l : List α) (h : ∀ a ∈ l, Settles (fun n => f n a) (P a)) :
    Settles (fun n => l.mapM (f n)) (fun r => List.Forall₂ P l r) := by
  induction l with
  | nil => exact Settles.ok (fun n => by simp [pure_eq]) .nil
  | cons a l ih =>
    simp only [List.mapM_cons]
    refine Settles.bind (h a (by simp)) fun b hb => ?_
    refine Settles.bind (ih fun a ha => h a (by simp [ha])) fun r hr => ?_
    exact Settles.ok (fun _ => rfl) (.cons hb hr)

theorem Settles.succ {P : α → Prop} {x : Nat → Out ε α} (h : Settles (fun n => x (n + 1)) P) : Settles x P := by
  obtain ⟨n, a, h1, h2⟩ := h
  refine ⟨n + 1, a, fun m hm => ?_, h2⟩
  obtain ⟨k, rfl⟩ : ∃ k, m = k + 1 := ⟨m - 1, by omega⟩
  exact h1 k (by omega)

theorem Settles.of_sure {P : α → Prop} {x : Out ε α} (h : Sure P x) : Settles (fun _ => x) P := by
  obtain ⟨a, rfl, ha⟩ := h.eq
  exact Settles.ok (fun _ => rfl) ha

end settles

section maths
variable {F : Type} [FNum F]
open FArith

theorem certain_shaped {φ : Str → Option (Function F)} {Γ : Str → Option Shape} {a : AST F} {σ : Shape} (h : Certain φ Γ a σ) :
    Shaped False False φ Γ a σ := by
  induction h with
  | scalar s => exact .scalar s
  | vector v hne _ ih => exact .vector v hne ih
  | matrix m c hne hc hr _ ih => exact .matrix m c hne hc hr ih
  | list l σ _ ih => exact .list l σ ih
  | «variable» x σ hx => exact .variable x σ hx
  | function g f args σs τ hne hg h1 h2 _ _ ih1 ih2 => exact .function g f args σs τ hne hg h1 h2 ih1 ih2
  | simple op l r σ τ ρ _ _ ho _ ihl ihr => exact .simple op l r σ τ ρ ihl ihr ho
  | derivative e x a σ _ _ iha ihe => exact .derivative e x a σ iha ihe

theorem sure_one {x : Out String (Value F)} {σ : Shape} (h : SureM σ x) : Sure (AllShape σ) (liftMath x >>= fun v => .ok [v]) := by
  obtain ⟨v, rfl, hv⟩ := h.eq
  intro w hw
  rcases List.mem_singleton.1 hw with rfl
  exact hv

theorem applyOp_sure (op : SimpleOp) {a b : Value F} {σ τ ρ : Shape} (ha : HasShape a σ) (hb : HasShape b τ)
    (h : opShape op σ τ = some ρ) (hu : Unconditional op σ) : Sure (AllShape ρ) (applyOp op a b) := by
  have same : ∀ {σ τ ρ : Shape}, (if σ = τ then some σ else none) = some ρ → σ = ρ ∧ τ = ρ := by
    intro σ τ ρ h
    split at h
    · rename_i e; cases h; exact ⟨rfl, e.symm⟩
    · cases h
  cases op <;> simp only [opShape] at h <;> simp only [applyOp]
  case add =>
    obtain ⟨rfl, rfl⟩ := same h
    exact sure_one (vAdd_sure ha hb)
  case sub =>
    obtain ⟨rfl, rfl⟩ := same h
    exact sure_one (vSub_sure ha hb)
  case addSub =>
    obtain ⟨rfl, rfl⟩ := same h
    obtain ⟨v, e1, hv⟩ := (vAdd_sure ha hb).eq
    obtain ⟨w, e2, hw⟩ := (vSub_sure ha hb).eq
    rw [e1, e2]
    intro u hu
    have hu : u ∈ [v, w] := hu
    simp only [List.mem_cons, List.not_mem_nil, or_false] at hu
    rcases hu with rfl | rfl
    · exact hv
    · exact hw
  case neg => cases h; exact sure_one (vNeg_sure hb)
  case mult => exact sure_one (vMult_sure ha hb h)
  case hiddenMult => exact sure_one (vMult_sure ha hb h)
  case div => exact sure_one (vDiv_sure ha hb h)
  case cross =>
    cases σ with
    | num => cases h
    | mat r c => cases h
    | vec n =>
      cases τ with
      | num => cases h
      | mat r c => cases h
      | vec m =>
        simp only at h
        split at h
        · rename_i e
          cases h
          obtain ⟨s, rfl, hs, hn⟩ := hasShape_vec ha
          obtain ⟨t, rfl, ht, _⟩ := hasShape_vec hb
          refine sure_one ?_
          simp only [vCross]
          rw [vcross_eq s t (by omega) (by omega)]
          exact ⟨crossL_length s t (by omega) (by omega), by omega⟩
        · cases h
  case pow =>
    obtain rfl := hu.2.2 rfl
    cases τ with
    | num =>
      cases h
      obtain ⟨s, rfl⟩ := hasShape_num ha
      obtain ⟨t, rfl⟩ := hasShape_num hb
      exact sure_one trivial
    | vec n => cases h
    | mat r c => cases h
  case get => exact absurd rfl hu.1
  case inv => exact absurd rfl hu.2.1
  case root =>
    split at h
    · rename_i e
      obtain ⟨rfl, rfl⟩ := e
      cases h
      obtain ⟨s, rfl⟩ := hasShape_num ha
      obtain ⟨t, rfl⟩ := hasShape_num hb
      exact sure_one trivial
    · cases h
  case abs =>
    cases σ with
    | num =>
      cases h
      obtain ⟨s, rfl⟩ := hasShape_num ha
      refine sure_one ?_
      simp only [vAbs]
      split <;> trivial
    | vec n =>
      cases h
      obtain ⟨s, rfl, _⟩ := hasShape_vec ha
      exact sure_one trivial
    | mat r c => cases h
  case det =>
    cases σ with
    | num => cases h
    | vec n => cases h
    | mat r c =>
      simp only at h
      split at h
      · rename_i e
        subst e
        cases h
        obtain ⟨s, rfl, hs, hr, hc⟩ := hasShape_mat ha
        refine sure_one ?_
        simp only [vDet]
        rw [detM_eq hr hs]
        trivial
      · cases h
  case parenths =>
    cases h
    intro v hv
    rcases List.mem_singleton.1 hv with rfl
    exact ha
  all_goals
    split at h
    · rename_i e
      subst e
      cases h
      obtain ⟨s, rfl⟩ := hasShape_num ha
      exact sure_one trivial
    · cases h

theorem sure_mapM {ε α β : Type} {P : β → Prop} {f : α → Out ε β} (l : List α) (h : ∀ a ∈ l, Sure P (f a)) :
    Sure (fun r => ∀ b ∈ r, P b) (l.mapM f) := by
  induction l with
  | nil => intro b hb; cases hb
  | cons a l ih =>
    simp only [List.mapM_cons]
    obtain ⟨b, e1, hb⟩ := (h a (by simp)).eq
    obtain ⟨r, e2, hr⟩ := (ih fun a ha => h a (by simp [ha])).eq
    rw [e1, ok_bind, e2, ok_bind]
    intro c hc
    rcases List.mem_cons.1 hc with rfl | hc
    · exact hb
    · exact hr c hc

theorem applyAll_sure (op : SimpleOp) {lv rv : List (Value F)} {σ τ ρ : Shape} (hl : AllShape σ lv) (hr : AllShape τ rv)
    (h : ∀ a b : Value F, HasShape a σ → HasShape b τ → Sure (AllShape ρ) (applyOp op a b)) : Sure (AllShape ρ) (applyAll op lv rv) := by
  unfold applyAll
  obtain ⟨res, e, hres⟩ := (sure_mapM (P := AllShape ρ) (f := fun i => do
      let r ← rv.mapM fun j => applyOp op i j
      (.ok r.flatten : Out EvalError (List (Value F)))) lv fun i hi => (by
    obtain ⟨r, e1, hr1⟩ := (sure_mapM (P := AllShape ρ) (f := fun j => applyOp op i j) rv fun j hj => h i j (hl i hi) (hr j hj)).eq
    rw [e1, ok_bind]
    exact mem_flatten_forall hr1)).eq
  rw [e, ok_bind]
  exact mem_flatten_forall hres

theorem allScalars_sure (e : EvalError) {vs : List (Value F)} (h : AllShape .num vs) : Sure (fun _ => True) (allScalars e vs) := by
  unfold allScalars
  have := sure_mapM (P := fun _ => True) (f := fun v : Value F => match v.getScalar with
    | some s => (.ok s : Out EvalError F)
    | none => .err e) vs fun v hv => (by
      obtain ⟨s, rfl⟩ := hasShape_num (h v hv)
      trivial)
  revert this
  cases List.mapM (m := Out EvalError) (fun v : Value F => match v.getScalar with
    | some s => (.ok s : Out EvalError F)
    | none => .err e) vs <;> intro h
  · trivial
  · exact h.elim
  · exact h.elim
  · exact h.elim

/-- The number of values of such an expression is determined by the numbers of values of the variables. -/
theorem certain_count {φ : Str → Option (Function F)} {Γ : Str → Option Shape} {a : AST F} {σ : Shape} (h : Certain φ Γ a σ) (ρ : Str → Nat) :
    ∃ k, ValueCount φ ρ a k k := by
  classical
  induction h generalizing ρ with
  | scalar s => exact ⟨1, .scalar s⟩
  | vector v _ _ ih =>
    choose! K hK using fun a (ha : a ∈ v) => ih a ha ρ
    have := ValueCount.vector (look := φ) (ρ := ρ) (v.map fun a => (a, K a, K a)) (by
      intro p hp
      obtain ⟨a, ha, rfl⟩ := List.mem_map.1 hp
      exact hK a ha)
    simp only [List.map_map, Function.comp_def, List.map_id'] at this
    exact ⟨_, this⟩
  | matrix m c _ _ _ _ ih =>
    choose! K hK using fun r (hr : r ∈ m) a (ha : a ∈ r) => ih r hr a ha ρ
    have := ValueCount.matrix (look := φ) (ρ := ρ) (m.map fun r => r.map fun a => (a, K r a, K r a)) (by
      intro l hl p hp
      obtain ⟨r, hr, rfl⟩ := List.mem_map.1 hl
      obtain ⟨a, ha, rfl⟩ := List.mem_map.1 hp
      exact hK r hr a ha)
    simp only [List.map_map, Function.comp_def, List.map_id'] at this
    exact ⟨_, this⟩
  | list l σ _ ih =>
    choose! K hK using fun a (ha : a ∈ l) => ih a ha ρ
    have := ValueCount.list (look := φ) (ρ := ρ) (l.map fun a => (a, K a, K a)) (by
      intro p hp
      obtain ⟨a, ha, rfl⟩ := List.mem_map.1 hp
      exact hK a ha)
    simp only [List.map_map, Function.comp_def, List.map_id'] at this
    exact ⟨_, this⟩
  | «variable» x σ _ => exact ⟨_, .variable x⟩
  | function g f args σs τ _ hg _ hlen _ _ ih ihb =>
    have ih' : ∀ a ∈ args, ∃ k, ValueCount φ ρ a k k := by
      intro a ha
      obtain ⟨i, hi, rfl⟩ := List.getElem_of_mem ha
      have hz : i < (args.zip σs).length := by rw [List.length_zip]; omega
      have := ih _ (List.getElem_mem hz) ρ
      rw [List.getElem_zip] at this
      exact this
    choose! K hK using ih'
    obtain ⟨k, hk⟩ := ihb fun n => if n ∈ f.inputs then 1 else ρ n
    have := ValueCount.function (look := φ) (ρ := ρ) g f k k (args.map fun a => (a, K a, K a)) hg (by
      intro p hp
      obtain ⟨a, ha, rfl⟩ := List.mem_map.1 hp
      exact hK a ha) hk
    simp only [List.map_map, Function.comp_def, List.map_id'] at this
    exact ⟨_, this⟩
  | simple op l r _ _ _ _ _ _ _ ihl ihr =>
    obtain ⟨a, ha⟩ := ihl ρ
    obtain ⟨b, hb⟩ := ihr ρ
    by_cases ho : op = .addSub
    · subst ho; exact ⟨_, .addSub l r _ _ _ _ ha hb⟩
    · exact ⟨_, .simple op l r _ _ _ _ ho ha hb⟩
  | derivative e x a σ _ _ iha ihe =>
    obtain ⟨k, hk⟩ := iha ρ
    obtain ⟨j, hj⟩ := ihe fun n => if n = x then 1 else ρ n
    exact ⟨_, .derivative e x a _ _ _ _ hj hk⟩

theorem fromValue_settles (cfg : Cfg) {v : Value F} {σ : Shape} (h : HasShape v σ) (c : Context F) :
    Settles (fun n => evalRec cfg n (AST.fromValue v) c []) (AllShape σ) := by
  have e : ∀ n, evalRec cfg (n + 2) (AST.fromValue v) c [] = .ok [v] := fun n => C28_from_value cfg v c n
  refine Settles.succ (Settles.succ (Settles.ok e ?_))
  intro w hw
  rcases List.mem_singleton.1 hw with rfl
  exact h

theorem quotient_settles (cfg : Cfg) {u v : Value F} {σ : Shape} (hu : HasShape u σ) (hv : HasShape v σ) (c : Context F) :
    Settles (fun n => evalRec cfg n (differenceQuotient cfg u v) c []) (AllShape σ) := by
  unfold differenceQuotient
  refine Settles.succ ?_
  simp only [evalRec]
  refine Settles.bind (P := AllShape σ) (Settles.succ ?_) fun lv hlv => ?_
  · simp only [evalRec]
    refine Settles.bind (fromValue_settles cfg hu c) fun lv hlv => ?_
    refine Settles.bind (fromValue_settles cfg hv c) fun rv hrv => ?_
    exact Settles.of_sure (applyAll_sure .sub hlv hrv fun a b ha hb => applyOp_sure .sub ha hb (by simp [opShape]) (by simp [Unconditional]))
  · refine Settles.bind (fromValue_settles cfg (v := .scalar _) (σ := .num) trivial c) fun rv hrv => ?_
    exact Settles.of_sure (applyAll_sure .div hlv hrv fun a b ha hb => applyOp_sure .div ha hb (by cases σ <;> rfl) (by simp [Unconditional]))

/-- Evaluation of a certain expression settles on values of its shape. -/
theorem certain_settles (cfg : Cfg) (hstart : ∀ j : Int, -1000 ≤ j → j < 1000 → IsFinite (FArith.ofInt j : F)) {φ : Str → Option (Function F)}
    {Γ : Str → Option Shape} {a : AST F} {σ : Shape} (h : Certain φ Γ a σ) {c : Context F} {w : Str} (hd : NoDupVars c) (hc : CtxShaped Γ c)
    (hφ : c.findFun = φ) (hin : ∀ f ∈ c.funs, f.inputs.Nodup) (hw : ¬ DirectCall w a) :
    Settles (fun n => evalRec cfg n a c w) (AllShape σ) := by
  induction h generalizing c w with
  | scalar s =>
    refine Settles.succ (Settles.ok (a := [.scalar s]) (fun n => by simp only [evalRec]) ?_)
    intro v hv
    rcases List.mem_singleton.1 hv with rfl
    trivial
  | vector v hne _ ih =>
    refine Settles.succ ?_
    simp only [evalRec]
    refine Settles.bind (Settles.mapM (P := fun _ _ => True) _ fun a ha => ?_) fun fields hf => ?_
    · exact Settles.bind (ih a ha hd hc hφ hin fun hh => hw (.vector _ a ha hh)) fun vs hvs => Settles.of_sure (allScalars_sure _ hvs)
    · refine Settles.ok (fun _ => rfl) ?_
      intro x hx
      obtain ⟨p, hp, rfl⟩ := List.mem_map.1 hx
      rw [cartProd_eq_choices] at hp
      refine ⟨?_, List.length_pos_iff.2 hne⟩
      rw [(choices_forall₂ hp).length_eq, hf.length_eq]
  | matrix m k hne hk hrect _ ih =>
    refine Settles.succ ?_
    simp only [evalRec]
    refine Settles.bind (Settles.mapM (P := fun _ (r : List (List F)) => r.length = k) _ fun l hl => ?_) fun rows hr => ?_
    · refine Settles.mono (Settles.mapM (P := fun _ _ => True) _ fun a ha => ?_) fun r hr => ?_
      · exact Settles.bind (ih l hl a ha hd hc hφ hin fun hh => hw (.matrix _ l a hl ha hh)) fun vs hvs => Settles.of_sure (allScalars_sure _ hvs)
      · rw [← hr.length_eq, hrect l hl]
    · refine Settles.ok (fun _ => rfl) ?_
      intro x hx
      obtain ⟨p, hp, rfl⟩ := List.mem_map.1 hx
      rw [cartProd_eq_choices] at hp
      refine shape_rect ⟨?_, ?_⟩ (List.length_pos_iff.2 hne) hk
      · rw [(choices_forall₂ hp).length_eq, List.length_map, hr.length_eq]
      · refine choices_forall hp fun l hl => ?_
        obtain ⟨row, hrow, rfl⟩ := List.mem_map.1 hl
        intro q hq
        rw [cartProd_eq_choices] at hq
        obtain ⟨_, _, h⟩ := forall₂_right hr hrow
        rw [(choices_forall₂ hq).length_eq, h]
  | list l σ _ ih =>
    refine Settles.succ ?_
    simp only [evalRec]
    refine Settles.bind (Settles.mapM (P := fun _ => AllShape σ) _ fun a ha => ih a ha hd hc hφ hin fun hh => hw (.list _ a ha hh)) fun vs hvs => ?_
    refine Settles.ok (fun _ => rfl) (mem_flatten_forall fun b hb => ?_)
    obtain ⟨_, _, h⟩ := forall₂_right hvs hb
    exact h
  | «variable» x σ hx =>
    obtain ⟨vs, h1, h2⟩ := hc x _ hx
    exact Settles.succ (Settles.ok (a := vs) (fun n => by simp only [evalRec]; rw [h1]) h2)
  | @function Γ g f args σs τ hne hg hlen hlen' hz0 hbody ih ihb =>
    refine Settles.succ ?_
    have hg' : c.findFun g = some f := by rw [hφ]; exact hg
    have hne' : w ≠ g := by rintro rfl; exact hw (.here _)
    simp only [evalRec, hg', if_neg hne', hlen, ne_eq, not_true_eq_false, if_false]
    have hargs : ∀ i (h1 : i < args.length) (h2 : i < σs.length), Settles (fun n => evalRec cfg n args[i] c w) (AllShape σs[i]) := by
      intro i h1 h2
      have hz : i < (args.zip σs).length := by rw [List.length_zip]; omega
      have := ih _ (List.getElem_mem hz) hd hc hφ hin (c := c) (w := w)
      rw [List.getElem_zip] at this
      exact this fun hh => hw (.arg _ _ _ (List.getElem_mem h1) hh)
    have hset : Settles (fun n => args.mapM fun i => evalRec cfg n i c w) (fun vals => List.Forall₂ AllShape σs vals) := by
      clear hlen hw hg hg' hbody ih ihb hz0
      induction args generalizing σs with
      | nil =>
        cases σs with
        | nil => exact Settles.ok (a := []) (fun n => rfl) .nil
        | cons _ _ => simp at hlen'
      | cons a args iha =>
        cases σs with
        | nil => simp at hlen'
        | cons τ σs =>
          simp only [List.mapM_cons]
          refine Settles.bind (hargs 0 (by simp) (by simp)) fun b hb => ?_
          refine Settles.bind (iha σs (by simpa using hlen') (fun i h1 h2 => hargs (i + 1) (by simpa using h1) (by simpa using h2))) fun r hr => ?_
          exact Settles.ok (fun _ => rfl) (.cons hb hr)
    refine Settles.bind hset fun vals hvals => ?_
    refine Settles.bind (Settles.mapM (P := fun _ => AllShape τ) _ fun p hp => ?_) fun r hr => ?_
    · rw [cartProd_eq_choices] at hp
      have hps : List.Forall₂ HasShape p σs := by
        have hp' := choices_forall₂ hp
        clear hp hargs hlen hlen' hbody hset ih ihb hz0
        induction hp' generalizing σs with
        | nil => cases hvals; exact .nil
        | cons h1 _ ih =>
          cases hvals with
          | cons h2 h3 => exact .cons (h2 _ h1) (ih _ h3)
      exact ihb (c := ⟨callVars f.inputs p c.vars, c.funs⟩) (noDup_call (hin f (List.mem_of_find?_eq_some hg'))) (ctxShaped_call hc _ hps) hφ hin
        (not_self_call hg (certain_shaped hbody))
    · refine Settles.ok (fun _ => rfl) (mem_flatten_forall fun b hb => ?_)
      obtain ⟨_, _, h⟩ := forall₂_right hr hb
      exact h
  | simple op l r σ τ ρ _ _ ho hu ihl ihr =>
    refine Settles.succ ?_
    simp only [evalRec]
    refine Settles.bind (ihl hd hc hφ hin fun hh => hw (.left _ _ _ hh)) fun lv hlv => ?_
    refine Settles.bind (ihr hd hc hφ hin fun hh => hw (.right _ _ _ hh)) fun rv hrv => ?_
    exact Settles.of_sure (applyAll_sure op hlv hrv fun a b ha hb => applyOp_sure op ha hb ho hu)
  | @derivative Γ e x a σ _ he iha ihe =>
    refine Settles.succ ?_
    simp only [evalRec]
    refine Settles.bind (iha hd hc hφ hin fun hh => hw (.at_ _ _ _ hh)) fun lv hlv => ?_
    refine Settles.bind (Settles.mapM (P := fun _ => AllShape σ) _ fun p hp => ?_) fun r hr => ?_
    · obtain ⟨s, rfl⟩ := hasShape_num (hlv p hp)
      unfold calculateDerivative
      simp only [dropVar_eq]
      have hc1 := ctxShaped_reset hc x s
      have hd1 : NoDupVars ((c.removeVar x).addVar ⟨x, [.scalar s]⟩) := noDup_add (noDup_remove hd x) _
      have hc2 := ctxShaped_reset hc1 x (add s (powi (ofInt 10) (-(cfg.prec : Int))))
      have hΓ : setShape (setShape Γ x .num) x .num = setShape Γ x .num := by
        funext y
        unfold setShape
        split <;> rfl
      rw [hΓ] at hc2
      have hd2 : NoDupVars ((((c.removeVar x).addVar ⟨x, [.scalar s]⟩).removeVar x).addVar
          ⟨x, [.scalar (add s (powi (ofInt 10) (-(cfg.prec : Int))))]⟩) := noDup_add (noDup_remove hd1 x) _
      obtain ⟨n1, fxs, e1, h1⟩ := ihe hd1 hc1 hφ hin (no_empty_call (certain_shaped he))
      obtain ⟨n2, fxhs, e2, h2⟩ := ihe hd2 hc2 hφ hin (no_empty_call (certain_shaped he))
      have hlen : fxs.length = fxhs.length := by
        obtain ⟨k, hk⟩ := certain_count he fun n => if n = x then 1 else countOf c n
        have hs : Sized φ (countOf c) c := by
          have := sized_context hd
          rwa [show (fun g => c.findFun g) = φ from hφ] at this
        have hs1 := sized_bind hs x s
        have hs2 := sized_bind hs1 x (add s (powi (ofInt 10) (-(cfg.prec : Int))))
        have hρ : (fun n => if n = x then 1 else if n = x then 1 else countOf c n) = fun n => if n = x then 1 else countOf c n := by
          funext n
          split <;> rfl
        rw [hρ] at hs2
        have p1 := evalRec_count cfg hstart φ n1 _ hk hs1 []
        have p2 := evalRec_count cfg hstart φ n2 _ hk hs2 []
        rw [show evalRec cfg n1 e _ [] = .ok fxs from e1 n1 le_rfl] at p1
        rw [show evalRec cfg n2 e _ [] = .ok fxhs from e2 n2 le_rfl] at p2
        have p1 : k ≤ fxs.length ∧ fxs.length ≤ k := p1
        have p2 : k ≤ fxhs.length ∧ fxhs.length ≤ k := p2
        omega
      refine Settles.bind ⟨n1, fxs, e1, (rfl : fxs = fxs)⟩ fun fxs' hfxs => ?_
      refine Settles.bind ⟨n2, fxhs, e2, (rfl : fxhs = fxhs)⟩ fun fxhs' hfxhs => ?_
      subst hfxs hfxhs
      simp only [hlen, ne_eq, not_true_eq_false, if_false]
      refine Settles.bind (Settles.mapM (P := fun _ => AllShape σ) _ fun i hi => ?_) fun r hr => ?_
      · have hi : i < fxhs.length := List.mem_range.1 hi
        simp only [idx_lt hi, idx_lt (show i < fxs.length by omega), ok_bind]
        exact quotient_settles cfg (h2 _ (List.getElem_mem _)) (h1 _ (List.getElem_mem _)) _
      · refine Settles.ok (fun _ => rfl) (mem_flatten_forall fun b hb => ?_)
        obtain ⟨_, _, h⟩ := forall₂_right hr hb
        exact h
    · refine Settles.ok (fun _ => rfl) (mem_flatten_forall fun b hb => ?_)
      obtain ⟨_, _, h⟩ := forall₂_right hr hb
      exact h

/-- **C104**. An expression with a shape that neither indexes, inverts, raises matrices to powers, integrates nor solves equations is always
evaluated successfully, and all its values have the shape: in every arithmetic (in which the whole numbers from -1000 to 999 are finite), for every
context whose variables have the right shapes, whatever the numbers are. -/
theorem C104_succeeds (cfg : Cfg) (hstart : ∀ j : Int, -1000 ≤ j → j < 1000 → IsFinite (FArith.ofInt j : F)) (ctx : Context F)
    (Γ : Str → Option Shape) (b : AST F) (σ : Shape) (hb : Certain ctx.findFun Γ b σ) (hd : NoDupVars ctx) (hc : CtxShaped Γ ctx)
    (hin : ∀ f ∈ ctx.funs, f.inputs.Nodup) :
    ∃ vs, Finishes (fun n => eval cfg n b ctx) (.ok vs) ∧ ∀ v ∈ vs, HasShape v σ := by
  obtain ⟨n, vs, h1, h2⟩ := certain_settles cfg hstart hb (w := []) hd hc rfl hin (no_empty_call (certain_shaped hb))
  exact ⟨vs, ⟨by simp, n, h1 n le_rfl⟩, h2⟩

/-- **C104** (how many values). Their number depends only on the expression and on the numbers of values of the variables, not on the values. -/
theorem C104_count (cfg : Cfg) (hstart : ∀ j : Int, -1000 ≤ j → j < 1000 → IsFinite (FArith.ofInt j : F)) (funs : List (Function F))
    (Γ : Str → Option Shape) (b : AST F) (σ : Shape) (hb : Certain (fun g => (⟨[], funs⟩ : Context F).findFun g) Γ b σ) (ρ : Str → Nat)
    (hin : ∀ f ∈ funs, f.inputs.Nodup) :
    ∃ k, ∀ vars : List (Variable F), NoDupVars ⟨vars, funs⟩ → CtxShaped Γ ⟨vars, funs⟩ → (∀ x, countOf ⟨vars, funs⟩ x = ρ x) →
      ∃ vs, Finishes (fun n => eval cfg n b ⟨vars, funs⟩) (.ok vs) ∧ vs.length = k ∧ ∀ v ∈ vs, HasShape v σ := by
  obtain ⟨k, hk⟩ := certain_count hb ρ
  refine ⟨k, fun vars hd hc hρ => ?_⟩
  obtain ⟨vs, h1, h2⟩ := C104_succeeds cfg hstart ⟨vars, funs⟩ Γ b σ hb hd hc hin
  refine ⟨vs, h1, ?_, h2⟩
  refine C82_exact cfg b ⟨vars, funs⟩ k vs hstart hd ?_ h1
  rw [show countOf ⟨vars, funs⟩ = ρ from funext hρ]
  exact hk

/-- **C104** (texts). The same for `quick_eval`. -/
theorem C104_text [UTable] (cfg : Cfg) (hstart : ∀ j : Int, -1000 ≤ j → j < 1000 → IsFinite (FArith.ofInt j : F)) (ctx : Context F)
    (Γ : Str → Option Shape) (s : Str) (b : AST F) (σ : Shape) (hp : parse cfg s = .ok b) (hb : Certain ctx.findFun Γ b σ) (hd : NoDupVars ctx)
    (hc : CtxShaped Γ ctx) (hin : ∀ f ∈ ctx.funs, f.inputs.Nodup) :
    ∃ vs, Finishes (fun n => quickEval cfg n s ctx) (.ok vs) ∧ ∀ v ∈ vs, HasShape v σ := by
  obtain ⟨vs, ⟨_, n, h1⟩, h2⟩ := C104_succeeds cfg hstart ctx Γ b σ hb hd hc hin
  refine ⟨vs, ⟨by simp, n, ?_⟩, h2⟩
  simp only at h1
  simp only [quickEval, hp]
  show (eval cfg n b ctx).mapErr QuickEvalError.evalError = _
  rw [h1]
  rfl

/-- **C104** (dividing line). Each excluded operation really can fail on operands of the right shapes, for reasons that only the numbers decide: an
index that is too large, the inverse of a matrix with determinant 0, a power with an exponent that is not an integer. -/
theorem C104_excluded (x : F) (h0 : rem (ofInt 7) (ofInt 1) = (ofInt 0 : F)) (h1 : beq (ofInt 0 : F) (ofInt 0) = true)
    (h2 : isSignNeg (ofInt 7 : F) = false) (h3 : toUsize (ofInt 7 : F) = 7) (k : F) (hk : beq (round k) k = false)
    (z : F) (hz : beq z (ofInt 0) = true) :
    (opShape .get (.vec 1) .num = some .num ∧ vGet (.vector [x]) (.scalar (ofInt 7)) = .err "Index out of bounds for vector!") ∧
    (opShape .inv (.mat 1 1) .num = some (.mat 1 1) ∧
      vInv (.matrix [[z]]) = .err "Can't calculate inverse of a matrix with determinant 0!") ∧
    (opShape .pow (.mat 1 1) .num = some (.mat 1 1) ∧ vPow (.matrix [[x]]) (.scalar k) = .err "Exponent must be an integer!") := by
  refine ⟨⟨rfl, ?_⟩, ⟨rfl, ?_⟩, ⟨rfl, ?_⟩⟩
  · simp [vGet, h0, h1, h2, h3]
  · have : detM [[z]] = .ok (.scalar z) := rfl
    simp only [vInv, invM, this, hz, if_true]
  · simp only [vPow, mspow, hk]
    rfl

end maths
end MUL
