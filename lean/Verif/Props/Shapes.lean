import Verif.Spec.Shapes
import Verif.Proofs.EvalSafe
import Verif.Proofs.Calculus
import Verif.Proofs.Denote
import Verif.Proofs.Inverse
import Verif.Proofs.EqSafe
import Verif.Props.EvalCtx
import Verif.Props.ContextMap
import Verif.Props.StepByStep
import Verif.Props.Roots
/-!
# C100: the shape of a result can be read off the expression
-/

set_option linter.unusedSectionVars false

namespace MUL
open Out Spec

namespace Out

variable {ε α β : Type} {lax : Prop} {E : ε → Prop}

/-- The value satisfies `P`; unless `lax`, there is no panic and an error satisfies `E`. -/
def Fine (lax : Prop) (E : ε → Prop) (P : α → Prop) : Out ε α → Prop
  | ok a => P a
  | err e => lax ∨ E e
  | panic => lax
  | timeout => True

theorem Fine.mono {P Q : α → Prop} {x : Out ε α} (h : Fine lax E P x) (hPQ : ∀ a, P a → Q a) : Fine lax E Q x := by
  cases x with
  | ok a => exact hPQ a h
  | err e => exact h
  | panic => exact h
  | timeout => trivial

theorem Fine.weaken {P : α → Prop} {x : Out ε α} (h : Fine False E P x) : Fine lax E P x := by
  cases x with
  | ok a => exact h
  | err e => exact Or.inr (h.resolve_left id)
  | panic => exact absurd h id
  | timeout => trivial

theorem Fine.bind {P : α → Prop} {Q : β → Prop} {x : Out ε α} {f : α → Out ε β} (h : Fine lax E P x)
    (h' : ∀ a, P a → Fine lax E Q (f a)) : Fine lax E Q (x >>= f) := by
  cases x with
  | ok a => exact h' a h
  | err e => exact h
  | panic => exact h
  | timeout => trivial

theorem Fine.mapM {P : β → Prop} {f : α → Out ε β} (l : List α) (h : ∀ a ∈ l, Fine lax E P (f a)) :
    Fine lax E (fun r => r.length = l.length ∧ ∀ b ∈ r, P b) (l.mapM f) := by
  induction l with
  | nil => exact ⟨rfl, by simp⟩
  | cons a l ih =>
    simp only [List.mapM_cons]
    refine Fine.bind (h a (by simp)) fun b hb => ?_
    refine Fine.bind (ih fun a ha => h a (by simp [ha])) fun r hr => ?_
    refine ⟨by simp [hr.1], ?_⟩
    intro c hc
    rcases List.mem_cons.1 hc with rfl | hc
    · exact hb
    · exact hr.2 c hc

/-- each result satisfies the predicate that goes with its input -/
theorem Fine.mapM₂ {P : α → β → Prop} {f : α → Out ε β} (l : List α) (h : ∀ a ∈ l, Fine lax E (P a) (f a)) :
    Fine lax E (fun r => List.Forall₂ P l r) (l.mapM f) := by
  induction l with
  | nil => exact .nil
  | cons a l ih =>
    simp only [List.mapM_cons]
    refine Fine.bind (h a (by simp)) fun b hb => ?_
    refine Fine.bind (ih fun a ha => h a (by simp [ha])) fun r hr => ?_
    exact .cons hb hr

/-- There is a value, and it satisfies `P`. -/
def Sure (P : α → Prop) : Out ε α → Prop
  | ok a => P a
  | _ => False

theorem Sure.fine {P : α → Prop} {x : Out ε α} (h : Sure P x) : Fine lax E P x := by
  cases x with
  | ok a => exact h
  | err e => exact absurd h id
  | panic => exact absurd h id
  | timeout => exact absurd h id

theorem Sure.eq {P : α → Prop} {x : Out ε α} (h : Sure P x) : ∃ a, x = .ok a ∧ P a := by
  cases x with
  | ok a => exact ⟨a, rfl, h⟩
  | err e => exact absurd h id
  | panic => exact absurd h id
  | timeout => exact absurd h id

theorem Fine.of_safe {P : α → Prop} {x : Out ε α} (h : Safe P x) (hE : ∀ e, x = .err e → E e) : Fine lax E P x := by
  cases x with
  | ok a => exact h
  | err e => exact Or.inr (hE e rfl)
  | panic => exact absurd trivial h
  | timeout => trivial

end Out

section maths
variable {F : Type} [FNum F] {lax eqs pows : Prop}
open FArith

/-- the results of one operation on values -/
abbrev FineM (σ : Shape) (x : Out String (Value F)) : Prop := Fine False (fun s => s ∈ numberFailures) (fun v => HasShape v σ) x

/-- the same, for operations that cannot fail -/
abbrev SureM (σ : Shape) (x : Out String (Value F)) : Prop := Sure (fun v => HasShape v σ) x

abbrev AllShape (σ : Shape) (vs : List (Value F)) : Prop := ∀ v ∈ vs, HasShape v σ

abbrev FineE (lax : Prop) (σ : Shape) (x : Out EvalError (List (Value F))) : Prop := Fine lax DependsOnNumbers (AllShape σ) x

theorem hasShape_num {v : Value F} (h : HasShape v .num) : ∃ s, v = .scalar s := by
  cases v with
  | scalar s => exact ⟨s, rfl⟩
  | vector v => exact absurd h id
  | matrix m => exact absurd h id

theorem hasShape_vec {v : Value F} {n : Nat} (h : HasShape v (.vec n)) : ∃ l, v = .vector l ∧ l.length = n ∧ 0 < n := by
  cases v with
  | scalar s => exact absurd h id
  | vector v => exact ⟨v, rfl, h⟩
  | matrix m => exact absurd h id

theorem hasShape_mat {v : Value F} {r c : Nat} (h : HasShape v (.mat r c)) : ∃ m, v = .matrix m ∧ Rect r c m ∧ 0 < r ∧ 0 < c := by
  cases v with
  | scalar s => exact absurd h id
  | vector v => exact absurd h id
  | matrix m => exact ⟨m, rfl, ⟨h.1, h.2.1⟩, h.2.2⟩

theorem shape_rect {r c : Nat} {m : List (List F)} (h : Rect r c m) (hr : 0 < r) (hc : 0 < c) : HasShape (.matrix m) (.mat r c) := ⟨h.1, h.2, hr, hc⟩

theorem vAdd_sure {a b : Value F} {σ : Shape} (ha : HasShape a σ) (hb : HasShape b σ) : SureM σ (vAdd a b) := by
  cases σ with
  | num =>
    obtain ⟨s, rfl⟩ := hasShape_num ha
    obtain ⟨t, rfl⟩ := hasShape_num hb
    trivial
  | vec n =>
    obtain ⟨s, rfl, hs, hn⟩ := hasShape_vec ha
    obtain ⟨t, rfl, ht, _⟩ := hasShape_vec hb
    simp only [vAdd]
    rw [vadd_eq s t (by omega)]
    exact ⟨by simp [hs, ht], hn⟩
  | mat r c =>
    obtain ⟨s, rfl, hs, hr, hc⟩ := hasShape_mat ha
    obtain ⟨t, rfl, ht, _⟩ := hasShape_mat hb
    simp only [vAdd]
    rw [madd_eq hr hs ht]
    exact shape_rect (rect_zipWith hs ht _) hr hc

theorem vAdd_fine {a b : Value F} {σ : Shape} (ha : HasShape a σ) (hb : HasShape b σ) : FineM σ (vAdd a b) :=
  (vAdd_sure ha hb).fine

theorem vSub_sure {a b : Value F} {σ : Shape} (ha : HasShape a σ) (hb : HasShape b σ) : SureM σ (vSub a b) := by
  cases σ with
  | num =>
    obtain ⟨s, rfl⟩ := hasShape_num ha
    obtain ⟨t, rfl⟩ := hasShape_num hb
    trivial
  | vec n =>
    obtain ⟨s, rfl, hs, hn⟩ := hasShape_vec ha
    obtain ⟨t, rfl, ht, _⟩ := hasShape_vec hb
    simp only [vSub, vsub]
    rw [vadd_eq s _ (by simp; omega)]
    exact ⟨by simp [hs, ht], hn⟩
  | mat r c =>
    obtain ⟨s, rfl, hs, hr, hc⟩ := hasShape_mat ha
    obtain ⟨t, rfl, ht, _⟩ := hasShape_mat hb
    simp only [vSub]
    rw [msub_eq hr hs ht]
    exact shape_rect (rect_zipWith hs (rect_map ht _) _) hr hc

theorem vSub_fine {a b : Value F} {σ : Shape} (ha : HasShape a σ) (hb : HasShape b σ) : FineM σ (vSub a b) :=
  (vSub_sure ha hb).fine

theorem vMult_sure {a b : Value F} {σ τ ρ : Shape} (ha : HasShape a σ) (hb : HasShape b τ) (h : mulShape σ τ = some ρ) : SureM ρ (vMult a b) := by
  cases σ with
  | num =>
    obtain ⟨s, rfl⟩ := hasShape_num ha
    cases τ with
    | num => obtain ⟨t, rfl⟩ := hasShape_num hb; cases h; trivial
    | vec n =>
      obtain ⟨t, rfl, ht, hn⟩ := hasShape_vec hb
      cases h
      exact ⟨by simp [ht], hn⟩
    | mat r c =>
      obtain ⟨t, rfl, ht, hr, hc⟩ := hasShape_mat hb
      cases h
      simp only [vMult]
      rw [smmult_eq s ht]
      exact shape_rect (rect_map ht _) hr hc
  | vec n =>
    obtain ⟨s, rfl, hs, hn⟩ := hasShape_vec ha
    cases τ with
    | num =>
      obtain ⟨t, rfl⟩ := hasShape_num hb
      cases h
      exact ⟨by simp [hs], hn⟩
    | vec m =>
      obtain ⟨t, rfl, ht, _⟩ := hasShape_vec hb
      simp only [mulShape] at h
      split at h
      · cases h
        simp only [vMult]
        rw [vvmult_eq s t (by omega)]
        trivial
      · cases h
    | mat r c => cases h
  | mat r c =>
    obtain ⟨s, rfl, hs, hr, hc⟩ := hasShape_mat ha
    cases τ with
    | num =>
      obtain ⟨t, rfl⟩ := hasShape_num hb
      cases h
      simp only [vMult]
      rw [smmult_eq t hs]
      exact shape_rect (rect_map hs _) hr hc
    | vec m =>
      obtain ⟨t, rfl, ht, _⟩ := hasShape_vec hb
      simp only [mulShape] at h
      split at h
      · cases h
        simp only [vMult]
        rw [mvmult_eq hr hs (by omega)]
        exact ⟨by simp [hs.1], hr⟩
      · cases h
    | mat r' c' =>
      obtain ⟨t, rfl, ht, hr', hc'⟩ := hasShape_mat hb
      simp only [mulShape] at h
      split at h
      · rename_i e
        subst e
        cases h
        simp only [vMult]
        rw [mmmult_eq hr hr' hs ht]
        exact shape_rect (rect_mul hs) hr hc'
      · cases h

theorem vMult_fine {a b : Value F} {σ τ ρ : Shape} (ha : HasShape a σ) (hb : HasShape b τ) (h : mulShape σ τ = some ρ) : FineM ρ (vMult a b) :=
  (vMult_sure ha hb h).fine

theorem vNeg_sure {a : Value F} {σ : Shape} (ha : HasShape a σ) : SureM σ (vNeg a) := by
  cases σ with
  | num => obtain ⟨s, rfl⟩ := hasShape_num ha; trivial
  | vec n =>
    obtain ⟨s, rfl, hs, hn⟩ := hasShape_vec ha
    exact ⟨by simp [hs], hn⟩
  | mat r c =>
    obtain ⟨s, rfl, hs, hr, hc⟩ := hasShape_mat ha
    exact shape_rect (rect_map hs _) hr hc

theorem vNeg_fine {a : Value F} {σ : Shape} (ha : HasShape a σ) : FineM σ (vNeg a) :=
  (vNeg_sure ha).fine

theorem vDiv_sure {a b : Value F} {σ τ ρ : Shape} (ha : HasShape a σ) (hb : HasShape b τ) (h : divShape σ τ = some ρ) : SureM ρ (vDiv a b) := by
  cases τ with
  | num =>
    obtain ⟨t, rfl⟩ := hasShape_num hb
    cases σ with
    | num => obtain ⟨s, rfl⟩ := hasShape_num ha; cases h; trivial
    | vec n =>
      obtain ⟨s, rfl, hs, hn⟩ := hasShape_vec ha
      cases h
      exact ⟨by simp [hs], hn⟩
    | mat r c =>
      obtain ⟨s, rfl, hs, hr, hc⟩ := hasShape_mat ha
      cases h
      simp only [vDiv, msdiv]
      rw [smmult_eq _ hs]
      exact shape_rect (rect_map hs _) hr hc
  | vec m =>
    cases σ with
    | num => cases h
    | vec n =>
      obtain ⟨s, rfl, hs, hn⟩ := hasShape_vec ha
      obtain ⟨t, rfl, ht, _⟩ := hasShape_vec hb
      simp only [divShape] at h
      split at h
      · cases h
        simp only [vDiv]
        rw [vvdiv_eq s t (by omega)]
        trivial
      · cases h
    | mat r c => cases h
  | mat r c => cases σ <;> cases h

theorem vDiv_fine {a b : Value F} {σ τ ρ : Shape} (ha : HasShape a σ) (hb : HasShape b τ) (h : divShape σ τ = some ρ) : FineM ρ (vDiv a b) :=
  (vDiv_sure ha hb h).fine

theorem mspow_fine {n : Nat} (hn : 0 < n) {m : List (List F)} (hm : Rect n n m) (b : F) : FineM (.mat n n) (mspow m b) := by
  cases hb : beq (round b) b with
  | false => rw [mspow_not_int m b hb]; exact Or.inr (by simp [numberFailures])
  | true =>
    rw [mspow_eq hn hm b hb]
    exact shape_rect (rect_powL m _) hn hn

theorem idx_no_err {ε α : Type} {l : List α} {i : Nat} {e : ε} : (idx l i : Out ε α) ≠ .err e := by
  unfold idx Out.unwrap
  cases l[i]? <;> (intro h; cases h)

theorem mapM_no_err {ε α β : Type} {f : α → Out ε β} {l : List α} (h : ∀ a ∈ l, ∀ e, f a ≠ .err e) (e : ε) : l.mapM f ≠ .err e := by
  induction l with
  | nil => intro h'; cases h'
  | cons a l ih =>
    rw [List.mapM_cons]
    intro h'
    rcases bind_eq_err.1 h' with h' | ⟨b, _, h'⟩
    · exact h a (by simp) e h'
    · rcases bind_eq_err.1 h' with h' | ⟨b, _, h'⟩
      · exact ih (fun a ha => h a (by simp [ha])) h'
      · cases h'

theorem elimStep_only {ε : Type} {zl e : ε} {v : List (List F)} {ij : Nat × Nat} (h : elimStep zl v ij = .err e) : e = zl := by
  unfold elimStep at h
  obtain ⟨i, j⟩ := ij
  have h2 : ∀ {m : List (List F)} {a b : Nat} {e : ε}, (idx2 m a b : Out ε F) ≠ .err e := by
    intro m a b e h
    unfold idx2 at h
    rcases bind_eq_err.1 h with h | ⟨_, _, h⟩ <;> exact absurd h idx_no_err
  rcases bind_eq_err.1 h with h | ⟨_, _, h⟩
  · exact absurd h h2
  rcases bind_eq_err.1 h with h | ⟨_, _, h⟩
  · exact absurd h h2
  rcases bind_eq_err.1 h with h | ⟨_, _, h⟩
  · exact absurd h idx_no_err
  rcases bind_eq_err.1 h with h | ⟨_, _, h⟩
  · exact absurd h idx_no_err
  rcases bind_eq_err.1 h with h | ⟨_, _, h⟩
  · refine absurd h (mapM_no_err (fun a _ e' => ?_) e)
    obtain ⟨x, k⟩ := a
    simp only
    split
    · intro h; cases h
    · intro h
      rcases bind_eq_err.1 h with h | ⟨_, _, h⟩
      · exact absurd h idx_no_err
      · cases h
  · split at h
    · cases h; rfl
    · cases h

theorem eliminate_only {ε : Type} {zl e : ε} {v : List (List F)} (h : eliminate zl v = .err e) : e = zl := by
  unfold eliminate at h
  generalize elimPairs v.length = ps at h
  induction ps generalizing v with
  | nil => cases h
  | cons p ps ih =>
    rw [List.foldlM_cons] at h
    rcases bind_eq_err.1 h with h | ⟨_, _, h⟩
    · exact elimStep_only h
    · exact ih h

theorem invM_fine {n : Nat} (hn : 0 < n) {m : List (List F)} (hm : Rect n n m) : FineM (.mat n n) (invM m) := by
  have hsafe := invM_post hn hm
  have herr : ∀ e, invM m = .err e → e ∈ numberFailures := by
    intro e he
    rw [invM_eq hn hm] at he
    split at he
    · cases he; simp [numberFailures]
    · rcases bind_eq_err.1 he with h | ⟨_, _, h⟩
      · rw [eliminate_only h]; simp [numberFailures]
      · rcases bind_eq_err.1 h with h | ⟨_, _, h⟩
        · rw [eliminate_only h]; simp [numberFailures]
        · cases h
  exact (Fine.of_safe hsafe herr).mono fun v ⟨m', e, h'⟩ => by subst e; exact shape_rect h' hn hn

theorem vGet_fine {a b : Value F} {n : Nat} (ha : HasShape a (.vec n)) (hb : HasShape b .num) : FineM .num (vGet a b) := by
  obtain ⟨s, rfl, hs, hn⟩ := hasShape_vec ha
  obtain ⟨t, rfl⟩ := hasShape_num hb
  simp only [vGet]
  split
  · exact Or.inr (by simp [numberFailures])
  · rw [if_neg (by omega)]
    split
    · exact Or.inr (by simp [numberFailures])
    · rw [idx_lt (by omega), ok_bind]
      trivial

theorem fine_lift {x : Out String (Value F)} {σ : Shape} (h : FineM σ x) :
    Fine lax DependsOnNumbers (fun v => HasShape v σ) (liftMath x) := by
  cases x with
  | ok v => exact h
  | err e => exact Or.inr (Or.inl (h.resolve_left id))
  | panic => exact absurd h id
  | timeout => trivial

theorem fine_one {x : Out String (Value F)} {σ : Shape} (h : FineM σ x) : FineE lax σ (liftMath x >>= fun v => .ok [v]) :=
  Fine.bind (fine_lift h) fun v hv w hw => by
    rcases List.mem_singleton.1 hw with rfl
    exact hv

/-- One operation on values of the right shapes. -/
theorem applyOp_fine (op : SimpleOp) {a b : Value F} {σ τ ρ : Shape} (ha : HasShape a σ) (hb : HasShape b τ)
    (h : opShape op σ τ = some ρ) : FineE lax ρ (applyOp op a b) := by
  have same : ∀ {σ τ ρ : Shape}, (if σ = τ then some σ else none) = some ρ → σ = ρ ∧ τ = ρ := by
    intro σ τ ρ h
    split at h
    · rename_i e; cases h; exact ⟨rfl, e.symm⟩
    · cases h
  cases op <;> simp only [opShape] at h <;> simp only [applyOp]
  case add =>
    obtain ⟨rfl, rfl⟩ := same h
    exact fine_one (vAdd_fine ha hb)
  case sub =>
    obtain ⟨rfl, rfl⟩ := same h
    exact fine_one (vSub_fine ha hb)
  case addSub =>
    obtain ⟨rfl, rfl⟩ := same h
    refine Fine.bind (fine_lift (vAdd_fine ha hb)) fun v hv => ?_
    refine Fine.bind (fine_lift (vSub_fine ha hb)) fun w hw => ?_
    intro u hu
    simp only [List.mem_cons, List.not_mem_nil, or_false] at hu
    rcases hu with rfl | rfl
    · exact hv
    · exact hw
  case neg => cases h; exact fine_one (vNeg_fine hb)
  case mult => exact fine_one (vMult_fine ha hb h)
  case hiddenMult => exact fine_one (vMult_fine ha hb h)
  case div => exact fine_one (vDiv_fine ha hb h)
  case cross =>
    cases σ with
    | num => cases h
    | mat r c => cases h
    | vec n =>
      cases τ with
      | num => cases h
      | mat r c => cases h
      | vec m =>
        simp only at h
        split at h
        · rename_i e
          cases h
          obtain ⟨s, rfl, hs, hn⟩ := hasShape_vec ha
          obtain ⟨t, rfl, ht, _⟩ := hasShape_vec hb
          refine fine_one ?_
          simp only [vCross]
          rw [vcross_eq s t (by omega) (by omega)]
          exact ⟨crossL_length s t (by omega) (by omega), by omega⟩
        · cases h
  case pow =>
    cases σ with
    | vec n => cases h
    | num =>
      cases τ with
      | num =>
        cases h
        obtain ⟨s, rfl⟩ := hasShape_num ha
        obtain ⟨t, rfl⟩ := hasShape_num hb
        exact fine_one trivial
      | vec n => cases h
      | mat r c => cases h
    | mat r c =>
      cases τ with
      | vec n => cases h
      | mat r c => cases h
      | num =>
        simp only at h
        split at h
        · rename_i e
          subst e
          cases h
          obtain ⟨s, rfl, hs, hr, hc⟩ := hasShape_mat ha
          obtain ⟨t, rfl⟩ := hasShape_num hb
          exact fine_one (mspow_fine hr hs t)
        · cases h
  case get =>
    cases σ with
    | num => cases h
    | mat r c => cases h
    | vec n =>
      cases τ with
      | vec n => cases h
      | mat r c => cases h
      | num =>
        cases h
        exact fine_one (vGet_fine ha hb)
  case root =>
    split at h
    · rename_i e
      obtain ⟨rfl, rfl⟩ := e
      cases h
      obtain ⟨s, rfl⟩ := hasShape_num ha
      obtain ⟨t, rfl⟩ := hasShape_num hb
      exact fine_one trivial
    · cases h
  case abs =>
    cases σ with
    | num =>
      cases h
      obtain ⟨s, rfl⟩ := hasShape_num ha
      refine fine_one ?_
      simp only [vAbs]
      split <;> trivial
    | vec n =>
      cases h
      obtain ⟨s, rfl, _⟩ := hasShape_vec ha
      exact fine_one trivial
    | mat r c => cases h
  case det =>
    cases σ with
    | num => cases h
    | vec n => cases h
    | mat r c =>
      simp only at h
      split at h
      · rename_i e
        subst e
        cases h
        obtain ⟨s, rfl, hs, hr, hc⟩ := hasShape_mat ha
        refine fine_one ?_
        simp only [vDet]
        rw [detM_eq hr hs]
        trivial
      · cases h
  case inv =>
    cases σ with
    | num => cases h
    | vec n => cases h
    | mat r c =>
      simp only at h
      split at h
      · rename_i e
        subst e
        cases h
        obtain ⟨s, rfl, hs, hr, hc⟩ := hasShape_mat ha
        exact fine_one (invM_fine hr hs)
      · cases h
  case parenths =>
    cases h
    intro v hv
    rcases List.mem_singleton.1 hv with rfl
    exact ha
  all_goals
    split at h
    · rename_i e
      subst e
      cases h
      obtain ⟨s, rfl⟩ := hasShape_num ha
      exact fine_one trivial
    · cases h

theorem applyAll_fine (op : SimpleOp) {lv rv : List (Value F)} {σ τ ρ : Shape} (hl : AllShape σ lv) (hr : AllShape τ rv)
    (h : ∀ a b : Value F, HasShape a σ → HasShape b τ → FineE lax ρ (applyOp op a b)) : FineE lax ρ (applyAll op lv rv) := by
  unfold applyAll
  refine Fine.bind (Fine.mapM (P := AllShape ρ) _ fun i hi => ?_) fun res hres => ?_
  · refine Fine.bind (Fine.mapM (P := AllShape ρ) _ fun j hj => ?_) fun r hr => ?_
    · exact h i j (hl i hi) (hr j hj)
    · exact mem_flatten_forall hr.2
  · exact mem_flatten_forall hres.2

/-! ## contexts -/

theorem ctxShaped_set {Γ : Str → Option Shape} {c : Context F} (h : CtxShaped Γ c) (x : Str) (p : F) :
    CtxShaped (setShape Γ x .num) (c.addVar ⟨x, [.scalar p]⟩) := by
  intro y σ hy
  rw [findVar_add]
  unfold setShape at hy
  split at hy
  · rename_i e
    cases hy
    rw [if_pos e]
    refine ⟨_, rfl, fun v hv => ?_⟩
    rcases List.mem_singleton.1 hv with rfl
    trivial
  · rename_i e
    rw [if_neg e]
    exact h y σ hy

theorem noDup_remove {c : Context F} (h : NoDupVars c) (x : Str) : NoDupVars (c.removeVar x) := by
  unfold NoDupVars Context.removeVar at *
  exact h.sublist (List.filter_sublist.map _)

theorem ctxShaped_reset {Γ : Str → Option Shape} {c : Context F} (h : CtxShaped Γ c) (x : Str) (p : F) :
    CtxShaped (setShape Γ x .num) ((c.removeVar x).addVar ⟨x, [.scalar p]⟩) := by
  intro y σ hy
  rw [findVar_add, findVar_removeVar]
  unfold setShape at hy
  split at hy
  · rename_i e
    cases hy
    rw [if_pos e]
    refine ⟨_, rfl, fun v hv => ?_⟩
    rcases List.mem_singleton.1 hv with rfl
    trivial
  · rename_i e
    rw [if_neg e, if_neg e]
    exact h y σ hy

theorem ctxShaped_call {Γ : Str → Option Shape} {c : Context F} (h : CtxShaped Γ c) (params : List Str) {args : List (Value F)} {σs : List Shape}
    (ha : List.Forall₂ HasShape args σs) : CtxShaped (callShapes Γ params σs) ⟨callVars params args c.vars, c.funs⟩ := by
  intro y σ hy
  have hfind : (⟨callVars params args c.vars, c.funs⟩ : Context F).findVar y =
      ((((params.zip args).map fun np => (⟨np.1, [np.2]⟩ : Variable F)).find? fun w => w.name == y).or
        (c.vars.find? fun w => w.name == y)).map (·.values) := by
    unfold Context.findVar callVars
    rw [find_callVars]
  rw [hfind]
  unfold callShapes at hy
  have key : (∃ v τ, ((params.zip args).map fun np => (⟨np.1, [np.2]⟩ : Variable F)).find? (fun w => w.name == y) = some ⟨y, [v]⟩ ∧
        (params.zip σs).find? (fun p => p.1 == y) = some (y, τ) ∧ HasShape v τ) ∨
      (((params.zip args).map fun np => (⟨np.1, [np.2]⟩ : Variable F)).find? (fun w => w.name == y) = none ∧
        (params.zip σs).find? (fun p => p.1 == y) = none) := by
    clear hfind hy
    induction ha generalizing params with
    | nil => right; simp
    | cons h1 _ ih =>
      cases params with
      | nil => right; simp
      | cons p ps =>
        simp only [List.zip_cons_cons, List.map_cons, List.find?_cons]
        by_cases e : p = y
        · subst e
          left
          exact ⟨_, _, by simp, by simp, h1⟩
        · have e' : (p == y) = false := by simpa using e
          rw [e']
          exact ih ps
  rcases key with ⟨v, τ, h1, h2, h3⟩ | ⟨h1, h2⟩
  · rw [h2] at hy
    cases hy
    rw [h1]
    refine ⟨[v], rfl, fun w hw => ?_⟩
    rcases List.mem_singleton.1 hw with rfl
    exact h3
  · rw [h2] at hy
    rw [h1]
    exact h y σ hy

theorem names_of_call {params : List Str} {args : List (Value F)} (h : params.Nodup) :
    (((params.zip args).map fun np => (⟨np.1, [np.2]⟩ : Variable F)).map (·.name)).Nodup := by
  rw [List.map_map]
  refine h.sublist ?_
  clear h
  induction params generalizing args with
  | nil => simp
  | cons p ps ih =>
    cases args with
    | nil => simp
    | cons a as =>
      simp only [List.zip_cons_cons, List.map_cons, Function.comp_apply]
      exact (ih (args := as)).cons_cons p

theorem noDup_call {c : Context F} {params : List Str} {args : List (Value F)} (h : params.Nodup) :
    NoDupVars (⟨callVars params args c.vars, c.funs⟩ : Context F) := nodup_callVars _ _ (names_of_call h)

/-! ## evaluation -/

/-- What the calculus functions need of the evaluator, for expressions of the shape `σ` with variables of the shapes `Γ`. -/
def FineEv (lax : Prop) (ev : Evaluator F) (Γ : Str → Option Shape) (a : AST F) (σ : Shape) (funs : List (Function F)) : Prop :=
  ∀ c : Context F, c.funs = funs → NoDupVars c → CtxShaped Γ c → FineE lax σ (ev a c)

theorem accumulate_fine {sums es : List (Value F)} (hs : AllShape .num sums) (he : AllShape .num es) : FineE lax .num (accumulate sums es) := by
  induction es generalizing sums with
  | nil => cases sums <;> exact hs
  | cons e es ih =>
    cases sums with
    | nil =>
      unfold accumulate
      refine Fine.bind (ih (sums := []) (by simp [AllShape]) fun v hv => he v (by simp [hv])) fun r hr => ?_
      intro v hv
      rcases List.mem_cons.1 hv with rfl | hv
      · exact he _ (by simp)
      · exact hr v hv
    | cons s ss =>
      unfold accumulate
      refine Fine.bind (fine_lift (vAdd_fine (hs s (by simp)) (he e (by simp)))) fun s' hs' => ?_
      refine Fine.bind (ih (fun v hv => hs v (by simp [hv])) fun v hv => he v (by simp [hv])) fun r hr => ?_
      intro v hv
      rcases List.mem_cons.1 hv with rfl | hv
      · exact hs'
      · exact hr v hv

theorem integralLoop_fine {ev : Evaluator F} {e : AST F} {x : Str} {vars : List (Variable F)} {funs : List (Function F)}
    (hev : ∀ p : F, FineE lax .num (ev e ⟨vars ++ [⟨x, [.scalar p]⟩], funs⟩)) (ub dx : F) (n : Nat) (b : F) (sums : List (Value F))
    (hs : AllShape .num sums) : FineE lax .num (integralLoop ev e x vars funs ub dx n b sums) := by
  induction n generalizing b sums with
  | zero =>
    unfold integralLoop
    split
    · trivial
    · exact hs
  | succ n ih =>
    unfold integralLoop
    split
    · refine Fine.bind (hev _) fun es he => ?_
      exact Fine.bind (accumulate_fine hs he) fun s hs => ih _ s hs
    · exact hs

theorem calculateIntegral_fine (cfg : Cfg) {ev : Evaluator F} (fuel : Nat) {e : AST F} {x : Str} {c : Context F}
    (hev : ∀ p : F, FineE lax .num (ev e ⟨eraseFirstVar c.vars x ++ [⟨x, [.scalar p]⟩], c.funs⟩)) {l u : Value F}
    (hl : HasShape l .num) (hu : HasShape u .num) : FineE lax .num (calculateIntegral cfg ev fuel e x l u c) := by
  obtain ⟨l, rfl⟩ := hasShape_num hl
  obtain ⟨u, rfl⟩ := hasShape_num hu
  unfold calculateIntegral
  simp only
  split
  · intro v hv
    rcases List.mem_singleton.1 hv with rfl
    trivial
  · refine Fine.bind (integralLoop_fine hev _ _ _ _ [] (by simp [AllShape])) fun s hs => ?_
    refine Fine.mono (Fine.mapM (P := fun v => HasShape v .num) _ fun v hv => ?_) fun r hr => hr.2
    exact fine_lift (vMult_fine (hs v hv) (τ := .num) trivial rfl)

theorem shaped_fromValue {φ : Str → Option (Function F)} {Γ : Str → Option Shape} {v : Value F} {σ : Shape} (h : HasShape v σ) :
    Shaped eqs pows φ Γ (AST.fromValue v) σ := by
  cases σ with
  | num => obtain ⟨s, rfl⟩ := hasShape_num h; exact .scalar s
  | vec n =>
    obtain ⟨s, rfl, rfl, hn⟩ := hasShape_vec h
    have := Shaped.vector (eqs := eqs) (pows := pows) (φ := φ) (Γ := Γ) (s.map AST.scalar) (by intro e; simp at e; subst e; simp at hn) (by
      intro a ha
      obtain ⟨x, _, rfl⟩ := List.mem_map.1 ha
      exact .scalar x)
    rw [List.length_map] at this
    exact this
  | mat r c =>
    obtain ⟨m, rfl, ⟨rfl, hm⟩, hr, hc⟩ := hasShape_mat h
    have := Shaped.matrix (eqs := eqs) (pows := pows) (φ := φ) (Γ := Γ) (m.map fun row => row.map AST.scalar) c
      (by intro e; simp at e; subst e; simp at hr) hc (by
        intro row hrow
        obtain ⟨row', h', rfl⟩ := List.mem_map.1 hrow
        rw [List.length_map, hm row' h']) (by
        intro row hrow a ha
        obtain ⟨row', h', rfl⟩ := List.mem_map.1 hrow
        obtain ⟨x, _, rfl⟩ := List.mem_map.1 ha
        exact .scalar x)
    rw [List.length_map] at this
    exact this

theorem noDirect_fromValue (w : Str) (v : Value F) : ¬ DirectCall w (AST.fromValue v) := by
  cases v with
  | scalar s => intro h; cases h
  | vector l =>
    intro h
    cases h with
    | vector _ a ha h =>
      obtain ⟨x, _, rfl⟩ := List.mem_map.1 ha
      cases h
  | matrix m =>
    intro h
    cases h with
    | matrix _ r a hr ha h =>
      obtain ⟨row, _, rfl⟩ := List.mem_map.1 hr
      obtain ⟨x, _, rfl⟩ := List.mem_map.1 ha
      cases h

theorem calculateDerivative_fine (cfg : Cfg) {ev : Evaluator F} {Γ : Str → Option Shape} {e : AST F} {σ : Shape} {x : Str} {c : Context F}
    (hev : FineEv lax ev (setShape Γ x .num) e σ c.funs)
    (hq : ∀ a b : Value F, HasShape a σ → HasShape b σ → FineEv lax ev (setShape Γ x .num) (differenceQuotient cfg a b) σ c.funs)
    (hd : NoDupVars c) (hc : CtxShaped Γ c) {p : Value F} (hp : HasShape p .num) : FineE lax σ (calculateDerivative cfg ev e x p c) := by
  obtain ⟨s, rfl⟩ := hasShape_num hp
  unfold calculateDerivative
  simp only [dropVar_eq]
  have hc1 := ctxShaped_reset hc x s
  have hd1 : NoDupVars ((c.removeVar x).addVar ⟨x, [.scalar s]⟩) := noDup_add (noDup_remove hd x) _
  refine Fine.bind (hev _ rfl hd1 hc1) fun fxs hfx => ?_
  have hc2 := ctxShaped_reset hc1 x (add s (powi (ofInt 10) (-(cfg.prec : Int))))
  have hΓ : setShape (setShape Γ x .num) x .num = setShape Γ x .num := by
    funext y
    unfold setShape
    split <;> rfl
  rw [hΓ] at hc2
  have hd2 : NoDupVars ((((c.removeVar x).addVar ⟨x, [.scalar s]⟩).removeVar x).addVar
      ⟨x, [.scalar (add s (powi (ofInt 10) (-(cfg.prec : Int))))]⟩) := noDup_add (noDup_remove hd1 x) _
  refine Fine.bind (hev _ rfl hd2 hc2) fun fxhs hfxh => ?_
  split
  · exact Or.inr (Or.inr rfl)
  · rename_i hlen
    have hlen : fxs.length = fxhs.length := by simpa using hlen
    refine Fine.bind (Fine.mapM (P := AllShape σ) _ fun i hi => ?_) fun r hr => ?_
    · have hi : i < fxs.length := List.mem_range.1 hi
      rw [idx_lt (show i < fxhs.length by omega), ok_bind, idx_lt hi, ok_bind]
      exact hq _ _ (hfxh _ (List.getElem_mem _)) (hfx _ (List.getElem_mem _)) _ rfl hd2 hc2
    · exact mem_flatten_forall hr.2

theorem allScalars_fine (e : EvalError) {vs : List (Value F)} (h : AllShape .num vs) : Fine lax DependsOnNumbers (fun _ => True) (allScalars e vs) := by
  unfold allScalars
  refine Fine.mono (Fine.mapM (P := fun _ => True) _ fun v hv => ?_) fun _ _ => trivial
  obtain ⟨s, rfl⟩ := hasShape_num (h v hv)
  trivial

/-- A function with a derivation does not call itself directly. -/
theorem not_circular {φ : Str → Option (Function F)} {Γ : Str → Option Shape} {a : AST F} {σ : Shape} (h : Shaped eqs pows φ Γ a σ) {g : Str}
    {f : Function F} (hg : φ g = some f) (hf : DirectCall g f.ast) : ¬ DirectCall g a := by
  induction h with
  | scalar s => intro h; cases h
  | vector v _ _ ih =>
    intro h
    cases h with
    | vector _ a ha h => exact ih a ha h
  | matrix m c _ _ _ _ ih =>
    intro h
    cases h with
    | matrix _ r a hr ha h => exact ih r hr a ha h
  | list l σ _ ih =>
    intro h
    cases h with
    | list _ a ha h => exact ih a ha h
  | «variable» x σ _ => intro h; cases h
  | function g' f' args σs τ _ hg' hlen hlen' _ _ ih ihb =>
    intro h
    cases h with
    | here _ =>
      rw [hg] at hg'
      cases hg'
      exact ihb hf
    | arg _ _ a ha h =>
      obtain ⟨i, hi, rfl⟩ := List.getElem_of_mem ha
      have hz : i < (args.zip σs).length := by rw [List.length_zip]; omega
      have := ih _ (List.getElem_mem hz)
      rw [List.getElem_zip] at this
      exact this h
  | simple op l r _ _ _ _ _ _ ihl ihr =>
    intro h
    cases h with
    | left _ _ _ h => exact ihl h
    | right _ _ _ h => exact ihr h
  | integral e x lo hi _ _ _ ihl ihh _ =>
    intro h
    cases h with
    | lower _ _ _ _ h => exact ihl h
    | upper _ _ _ _ h => exact ihh h
  | derivative e x a σ _ _ iha _ =>
    intro h
    cases h with
    | at_ _ _ _ h => exact iha h
  | equation1 eqs x _ => intro h; cases h
  | equations eqs xs _ _ => intro h; cases h
  | power l r m n _ _ _ ihl ihr =>
    intro h
    cases h with
    | left _ _ _ h => exact ihl h
    | right _ _ _ h => exact ihr h

theorem not_self_call {φ : Str → Option (Function F)} {Γ : Str → Option Shape} {σ : Shape} {g : Str} {f : Function F} (hg : φ g = some f)
    (h : Shaped eqs pows φ Γ f.ast σ) : ¬ DirectCall g f.ast := fun hf => not_circular h hg hf hf

theorem no_empty_call {φ : Str → Option (Function F)} {Γ : Str → Option Shape} {a : AST F} {σ : Shape} (h : Shaped eqs pows φ Γ a σ) :
    ¬ DirectCall [] a := by
  induction h with
  | scalar s => intro h; cases h
  | vector v _ _ ih =>
    intro h
    cases h with
    | vector _ a ha h => exact ih a ha h
  | matrix m c _ _ _ _ ih =>
    intro h
    cases h with
    | matrix _ r a hr ha h => exact ih r hr a ha h
  | list l σ _ ih =>
    intro h
    cases h with
    | list _ a ha h => exact ih a ha h
  | «variable» x σ _ => intro h; cases h
  | function g' f' args σs τ hne hg' hlen hlen' _ _ ih ihb =>
    intro h
    cases h with
    | here _ => exact hne rfl
    | arg _ _ a ha h =>
      obtain ⟨i, hi, rfl⟩ := List.getElem_of_mem ha
      have hz : i < (args.zip σs).length := by rw [List.length_zip]; omega
      have := ih _ (List.getElem_mem hz)
      rw [List.getElem_zip] at this
      exact this h
  | simple op l r _ _ _ _ _ _ ihl ihr =>
    intro h
    cases h with
    | left _ _ _ h => exact ihl h
    | right _ _ _ h => exact ihr h
  | integral e x lo hi _ _ _ ihl ihh _ =>
    intro h
    cases h with
    | lower _ _ _ _ h => exact ihl h
    | upper _ _ _ _ h => exact ihh h
  | derivative e x a σ _ _ iha _ =>
    intro h
    cases h with
    | at_ _ _ _ h => exact iha h
  | equation1 eqs x _ => intro h; cases h
  | equations eqs xs _ _ => intro h; cases h
  | power l r m n _ _ _ ihl ihr =>
    intro h
    cases h with
    | left _ _ _ h => exact ihl h
    | right _ _ _ h => exact ihr h

theorem mspow_any {r c : Nat} (hr : 0 < r) (hc : 0 < c) {m : List (List F)} (hm : Rect r c m) (b : F) (v : Value F) (h : mspow m b = .ok v) :
    HasShape v (.mat r c) := by
  by_cases hrc : r = c
  · subst hrc
    have := mspow_fine hr hm b
    rw [h] at this
    exact this
  · cases hb : beq (round b) b with
    | false => rw [mspow_not_int m b hb] at h; cases h
    | true =>
      rw [mspow_not_square hr hrc hm b hb] at h
      split at h
      · cases h; exact shape_rect (rect_eye r c) hr hc
      · cases h

theorem evalRec_fine (cfg : Cfg) {φ : Str → Option (Function F)} (hstart : eqs → ∀ j : Int, -1000 ≤ j → j < 1000 → IsFinite (FArith.ofInt j : F))
    (n : Nat) {Γ : Str → Option Shape} {b : AST F} {σ : Shape} (hb : Shaped eqs pows φ Γ b σ)
    {c : Context F} (hd : NoDupVars c) (hc : CtxShaped Γ c) (hφ : c.findFun = φ) (hin : ∀ f ∈ c.funs, f.inputs.Nodup) {w : Str}
    (hw : ¬ DirectCall w b) : FineE (eqs ∨ pows) σ (evalRec cfg n b c w) := by
  induction n generalizing b c w Γ σ with
  | zero => trivial
  | succ n ih =>
    cases hb with
    | scalar s =>
      simp only [evalRec]
      intro v hv
      rcases List.mem_singleton.1 hv with rfl
      trivial
    | vector v hne h =>
      simp only [evalRec]
      refine Fine.bind (Fine.mapM (P := fun _ => True) _ fun a ha => ?_) fun fields hf => ?_
      · exact Fine.bind (ih (h a ha) hd hc hφ hin fun hh => hw (.vector _ a ha hh)) fun vs hvs => allScalars_fine _ hvs
      · intro x hx
        obtain ⟨p, hp, rfl⟩ := List.mem_map.1 hx
        rw [cartProd_eq_choices] at hp
        refine ⟨?_, List.length_pos_iff.2 hne⟩
        rw [(choices_forall₂ hp).length_eq, hf.1]
    | matrix m k hne hk hrect h =>
      simp only [evalRec]
      refine Fine.bind (Fine.mapM (P := fun (r : List (List F)) => r.length = k) _ fun l hl => ?_) fun rows hr => ?_
      · refine Fine.mono (Fine.mapM (P := fun _ => True) _ fun a ha => ?_) fun r hr => ?_
        · exact Fine.bind (ih (h l hl a ha) hd hc hφ hin fun hh => hw (.matrix _ l a hl ha hh)) fun vs hvs => allScalars_fine _ hvs
        · rw [hr.1, hrect l hl]
      · intro x hx
        obtain ⟨p, hp, rfl⟩ := List.mem_map.1 hx
        rw [cartProd_eq_choices] at hp
        refine shape_rect ⟨?_, ?_⟩ (List.length_pos_iff.2 hne) hk
        · rw [(choices_forall₂ hp).length_eq, List.length_map, hr.1]
        · refine choices_forall hp fun l hl => ?_
          obtain ⟨row, hrow, rfl⟩ := List.mem_map.1 hl
          intro q hq
          rw [cartProd_eq_choices] at hq
          rw [(choices_forall₂ hq).length_eq, hr.2 row hrow]
    | list l _ h =>
      simp only [evalRec]
      refine Fine.bind (Fine.mapM (P := AllShape σ) _ fun a ha => ih (h a ha) hd hc hφ hin fun hh => hw (.list _ a ha hh)) fun vs hvs => ?_
      exact mem_flatten_forall hvs.2
    | «variable» x _ hx =>
      simp only [evalRec]
      obtain ⟨vs, h1, h2⟩ := hc x σ hx
      rw [h1]
      exact h2
    | function g f args σs _ hne hg hlen hlen' hargs hbody =>
      simp only [evalRec]
      rw [if_neg (by rintro rfl; exact hw (.here _))]
      have hg' : c.findFun g = some f := by rw [hφ]; exact hg
      rw [hg']
      simp only
      rw [if_neg (by simpa using hlen)]
      have hmem : ∀ i (h1 : i < args.length) (h2 : i < σs.length), Shaped eqs pows φ Γ args[i] σs[i] := by
        intro i h1 h2
        have hz : i < (args.zip σs).length := by rw [List.length_zip]; omega
        have := hargs _ (List.getElem_mem hz)
        rw [List.getElem_zip] at this
        exact this
      have hin' : ∀ a ∈ args, ∀ τ, Shaped eqs pows φ Γ a τ → FineE (eqs ∨ pows) τ (evalRec cfg n a c w) :=
        fun a ha τ h => ih h hd hc hφ hin fun hh => hw (.arg _ _ a ha hh)
      have hfine : Fine (eqs ∨ pows) DependsOnNumbers (fun vals => List.Forall₂ AllShape σs vals) (args.mapM fun i => evalRec cfg n i c w) := by
        clear hargs hlen hw hg hg' hbody
        induction args generalizing σs with
        | nil =>
          cases σs with
          | nil => exact .nil
          | cons _ _ => simp at hlen'
        | cons a args iha =>
          cases σs with
          | nil => simp at hlen'
          | cons τ σs =>
            simp only [List.mapM_cons]
            refine Fine.bind (hin' a (by simp) τ (hmem 0 (by simp) (by simp))) fun b hb => ?_
            refine Fine.bind (iha σs (by simpa using hlen') (fun i h1 h2 => hmem (i + 1) (by simpa using h1) (by simpa using h2))
              (fun a ha => hin' a (by simp [ha]))) fun r hr => ?_
            exact .cons hb hr
      refine Fine.bind hfine fun vals hvals => ?_
      refine Fine.bind (Fine.mapM (P := AllShape σ) _ fun p hp => ?_) fun r hr => ?_
      · rw [cartProd_eq_choices] at hp
        have hps : List.Forall₂ HasShape p σs := by
          have hp' := choices_forall₂ hp
          clear hp hmem hin' hargs hlen hlen' hbody hfine
          induction hp' generalizing σs with
          | nil => cases hvals; exact .nil
          | cons h1 _ ih =>
            cases hvals with
            | cons h2 h3 => exact .cons (h2 _ h1) (ih _ h3)
        refine ih (c := ⟨callVars f.inputs p c.vars, c.funs⟩) hbody (noDup_call (hin f (List.mem_of_find?_eq_some hg'))) (ctxShaped_call hc _ hps) hφ hin ?_
        exact not_self_call hg hbody
      · exact mem_flatten_forall hr.2
    | simple op l r σ' τ' _ hl hr ho =>
      simp only [evalRec]
      refine Fine.bind (ih hl hd hc hφ hin fun hh => hw (.left _ _ _ hh)) fun lv hlv => ?_
      refine Fine.bind (ih hr hd hc hφ hin fun hh => hw (.right _ _ _ hh)) fun rv hrv => ?_
      exact applyAll_fine op hlv hrv fun a b ha hb => applyOp_fine op ha hb ho
    | integral e x lo hi hlo hhi he =>
      simp only [evalRec]
      refine Fine.bind (ih hlo hd hc hφ hin fun hh => hw (.lower _ _ _ _ hh)) fun lv hlv => ?_
      refine Fine.bind (ih hhi hd hc hφ hin fun hh => hw (.upper _ _ _ _ hh)) fun rv hrv => ?_
      refine Fine.bind (Fine.mapM (P := AllShape .num) _ fun i hi => ?_) fun r hr => ?_
      · refine Fine.bind (Fine.mapM (P := AllShape .num) _ fun j hj => ?_) fun r hr => ?_
        · refine calculateIntegral_fine cfg n (fun p => ?_) (hlv i hi) (hrv j hj)
          have he' : ¬ DirectCall [] e := no_empty_call he
          have hs := sample_eval cfg n e hd x p
          rw [hs]
          exact ih he (noDup_add hd _) (ctxShaped_set hc x p) hφ hin he'
        · exact mem_flatten_forall hr.2
      · exact mem_flatten_forall hr.2
    | derivative e x a _ ha he =>
      simp only [evalRec]
      refine Fine.bind (ih ha hd hc hφ hin fun hh => hw (.at_ _ _ _ hh)) fun lv hlv => ?_
      refine Fine.bind (Fine.mapM (P := AllShape σ) _ fun i hi => ?_) fun r hr => ?_
      · refine calculateDerivative_fine cfg (Γ := Γ) ?_ ?_ hd hc (hlv i hi)
        · intro c' hf hd' hc'
          exact ih he hd' hc' (by rw [← hφ]; funext g; simp only [Context.findFun, hf]) (by rw [hf]; exact hin) (no_empty_call he)
        · intro u v hu hv c' hf hd' hc'
          have hq : Shaped eqs pows φ (setShape Γ x .num) (differenceQuotient cfg u v) σ :=
            .simple _ _ _ σ .num σ (.simple _ _ _ σ σ σ (shaped_fromValue hu) (shaped_fromValue hv) (by simp [opShape])) (shaped_fromValue (σ := .num) trivial)
              (by cases σ <;> rfl)
          exact ih hq hd' hc' (by rw [← hφ]; funext g; simp only [Context.findFun, hf]) (by rw [hf]; exact hin) (no_empty_call hq)
      · exact mem_flatten_forall hr.2
    | equation1 es x hlax =>
      have := C46_shape cfg es [x] c
      cases h : evalRec cfg (n + 1) (.equation es [x]) c w with
      | err e => exact Or.inl (Or.inl hlax)
      | panic => exact Or.inl hlax
      | timeout => trivial
      | ok vs =>
        intro v hv
        rcases this vs (hstart hlax) ⟨by simp, n + 1, by simp only [eval]; rw [← h]; simp only [evalRec]⟩ v hv with ⟨_, s, rfl, _⟩ | ⟨h1, _⟩
        · trivial
        · simp at h1
    | equations es xs hlax h2 =>
      have := C46_shape cfg es xs c
      cases h : evalRec cfg (n + 1) (.equation es xs) c w with
      | err e => exact Or.inl (Or.inl hlax)
      | panic => exact Or.inl hlax
      | timeout => trivial
      | ok vs =>
        intro v hv
        rcases this vs (hstart hlax) ⟨by simp, n + 1, by simp only [eval]; rw [← h]; simp only [evalRec]⟩ v hv with ⟨h1, _⟩ | ⟨_, l, rfl, hl, _⟩
        · omega
        · exact ⟨hl, by omega⟩
    | power l r m k hlax hl hr =>
      simp only [evalRec]
      refine Fine.bind (ih hl hd hc hφ hin fun hh => hw (.left _ _ _ hh)) fun lv hlv => ?_
      refine Fine.bind (ih hr hd hc hφ hin fun hh => hw (.right _ _ _ hh)) fun rv hrv => ?_
      refine applyAll_fine .pow hlv hrv fun a b ha hb => ?_
      obtain ⟨m', rfl, hm, h1, h2⟩ := hasShape_mat ha
      obtain ⟨s, rfl⟩ := hasShape_num hb
      simp only [applyOp, vPow]
      cases h : mspow m' s with
      | err e => exact Or.inl (Or.inr hlax)
      | panic => exact Or.inr hlax
      | timeout => trivial
      | ok v =>
        intro u hu
        rcases List.mem_singleton.1 hu with rfl
        exact mspow_any h1 h2 hm s _ h

/-! ## the converse -/

theorem cannot_err {ε α : Type} {x : Out ε α} {a : α} {e : ε} (h : x = .ok a) (h' : x = .err e) : False := by rw [h] at h'; cases h'

/-- An operation that succeeds on values of the shapes `σ`, `τ` is admitted for these shapes. -/
theorem shape_of_ok (op : SimpleOp) {a b : Value F} {σ τ : Shape} (ha : HasShape a σ) (hb : HasShape b τ) {vs : List (Value F)}
    (h : applyOp op a b = .ok vs) : vs ≠ [] ∧ ((∃ ρ, opShape op σ τ = some ρ) ∨ (op = .pow ∧ ∃ m n, σ = .mat m n ∧ τ = .num)) := by
  have one : ∀ {x : Out String (Value F)}, (liftMath x >>= fun v => (.ok [v] : Out EvalError (List (Value F)))) = .ok vs →
      vs ≠ [] ∧ ∃ v, x = .ok v := by
    intro x hx
    obtain ⟨v, h1, h2⟩ := bind_eq_ok.1 hx
    cases h2
    exact ⟨by simp, v, mapErr_eq_ok.1 h1⟩
  have oneE : ∀ {x : Out String (Value F)} {e : String}, (liftMath x >>= fun v => (.ok [v] : Out EvalError (List (Value F)))) = .ok vs →
      x = .err e → False := fun hx he => cannot_err (one hx).2.choose_spec he
  have sameShape : ∀ {x : Out String (Value F)} {v : Value F}, x = vAdd a b → x = .ok v → σ = τ := by
    intro x v hx hv
    subst hx
    cases σ with
    | num =>
      obtain ⟨s, rfl⟩ := hasShape_num ha
      cases τ with
      | num => rfl
      | vec n => obtain ⟨t, rfl, _⟩ := hasShape_vec hb; cases hv
      | mat r c => obtain ⟨t, rfl, _⟩ := hasShape_mat hb; cases hv
    | vec n =>
      obtain ⟨s, rfl, hs, _⟩ := hasShape_vec ha
      cases τ with
      | num => obtain ⟨t, rfl⟩ := hasShape_num hb; cases hv
      | vec m =>
        obtain ⟨t, rfl, ht, _⟩ := hasShape_vec hb
        by_cases e : s.length = t.length
        · rw [← hs, ← ht, e]
        · exact (cannot_err hv (vadd_err s t e)).elim
      | mat r c => obtain ⟨t, rfl, _⟩ := hasShape_mat hb; cases hv
    | mat r c =>
      obtain ⟨s, rfl, hs, hr, hc⟩ := hasShape_mat ha
      cases τ with
      | num => obtain ⟨t, rfl⟩ := hasShape_num hb; cases hv
      | vec m => obtain ⟨t, rfl, _⟩ := hasShape_vec hb; cases hv
      | mat r' c' =>
        obtain ⟨t, rfl, ht, hr', hc'⟩ := hasShape_mat hb
        by_cases e : r = r' ∧ c = c'
        · rw [e.1, e.2]
        · exact (cannot_err hv (madd_err hs ht hr hr' (by omega))).elim
  have sameSub : ∀ {v : Value F}, vSub a b = .ok v → σ = τ := by
    intro v hv
    cases σ with
    | num =>
      obtain ⟨s, rfl⟩ := hasShape_num ha
      cases τ with
      | num => rfl
      | vec n => obtain ⟨t, rfl, _⟩ := hasShape_vec hb; cases hv
      | mat r c => obtain ⟨t, rfl, _⟩ := hasShape_mat hb; cases hv
    | vec n =>
      obtain ⟨s, rfl, hs, _⟩ := hasShape_vec ha
      cases τ with
      | num => obtain ⟨t, rfl⟩ := hasShape_num hb; cases hv
      | vec m =>
        obtain ⟨t, rfl, ht, _⟩ := hasShape_vec hb
        by_cases e : s.length = t.length
        · rw [← hs, ← ht, e]
        · exact (cannot_err hv (vadd_err s _ (by simpa using e))).elim
      | mat r c => obtain ⟨t, rfl, _⟩ := hasShape_mat hb; cases hv
    | mat r c =>
      obtain ⟨s, rfl, hs, hr, hc⟩ := hasShape_mat ha
      cases τ with
      | num => obtain ⟨t, rfl⟩ := hasShape_num hb; cases hv
      | vec m => obtain ⟨t, rfl, _⟩ := hasShape_vec hb; cases hv
      | mat r' c' =>
        obtain ⟨t, rfl, ht, hr', hc'⟩ := hasShape_mat hb
        by_cases e : r = r' ∧ c = c'
        · rw [e.1, e.2]
        · exact (cannot_err hv (msub_err hs ht hr hr' (by omega))).elim
  have prod : ∀ {v : Value F}, vMult a b = .ok v → ∃ ρ, mulShape σ τ = some ρ := by
    intro v hv
    cases σ with
    | num => exact ⟨τ, by cases τ <;> rfl⟩
    | vec n =>
      obtain ⟨s, rfl, hs, _⟩ := hasShape_vec ha
      cases τ with
      | num => exact ⟨_, rfl⟩
      | vec m =>
        obtain ⟨t, rfl, ht, _⟩ := hasShape_vec hb
        by_cases e : s.length = t.length
        · exact ⟨.num, by simp only [mulShape]; rw [if_pos (by omega)]⟩
        · simp only [vMult, vvmult] at hv
          rw [if_pos e] at hv
          cases hv
      | mat r c => obtain ⟨t, rfl, _⟩ := hasShape_mat hb; cases hv
    | mat r c =>
      obtain ⟨s, rfl, hs, hr, hc⟩ := hasShape_mat ha
      cases τ with
      | num => exact ⟨_, rfl⟩
      | vec m =>
        obtain ⟨t, rfl, ht, _⟩ := hasShape_vec hb
        by_cases e : t.length = c
        · exact ⟨.vec r, by simp only [mulShape]; rw [if_pos (by omega)]⟩
        · exact (cannot_err hv (mvmult_err hr hs e)).elim
      | mat r' c' =>
        obtain ⟨t, rfl, ht, hr', hc'⟩ := hasShape_mat hb
        by_cases e : c = r'
        · exact ⟨.mat r c', by simp only [mulShape]; rw [if_pos e]⟩
        · exact (cannot_err hv (mmmult_err hr hs ht e)).elim
  cases op <;> simp only [applyOp] at h <;> simp only [opShape]
  case add =>
    obtain ⟨hne, v, hv⟩ := one h
    exact ⟨hne, Or.inl ⟨σ, by rw [if_pos (sameShape rfl hv)]⟩⟩
  case sub =>
    obtain ⟨hne, v, hv⟩ := one h
    exact ⟨hne, Or.inl ⟨σ, by rw [if_pos (sameSub hv)]⟩⟩
  case addSub =>
    obtain ⟨v, h1, h⟩ := bind_eq_ok.1 h
    obtain ⟨w, h2, h⟩ := bind_eq_ok.1 h
    cases h
    exact ⟨by simp, Or.inl ⟨σ, by rw [if_pos (sameShape rfl (mapErr_eq_ok.1 h1))]⟩⟩
  case neg => exact ⟨(one h).1, Or.inl ⟨τ, rfl⟩⟩
  case mult => obtain ⟨hne, v, hv⟩ := one h; exact ⟨hne, Or.inl (prod hv)⟩
  case hiddenMult => obtain ⟨hne, v, hv⟩ := one h; exact ⟨hne, Or.inl (prod hv)⟩
  case div =>
    obtain ⟨hne, v, hv⟩ := one h
    refine ⟨hne, Or.inl ?_⟩
    cases τ with
    | num => exact ⟨σ, by cases σ <;> rfl⟩
    | vec m =>
      obtain ⟨t, rfl, ht, _⟩ := hasShape_vec hb
      cases σ with
      | num => obtain ⟨s, rfl⟩ := hasShape_num ha; cases hv
      | vec n =>
        obtain ⟨s, rfl, hs, _⟩ := hasShape_vec ha
        by_cases e : s.length = t.length
        · exact ⟨.num, by simp only [divShape]; rw [if_pos (by omega)]⟩
        · simp only [vDiv, vvdiv] at hv
          rw [if_pos e] at hv
          cases hv
      | mat r c => obtain ⟨s, rfl, _⟩ := hasShape_mat ha; cases hv
    | mat r c =>
      obtain ⟨t, rfl, _⟩ := hasShape_mat hb
      cases σ with
      | num => obtain ⟨s, rfl⟩ := hasShape_num ha; cases hv
      | vec n => obtain ⟨s, rfl, _⟩ := hasShape_vec ha; cases hv
      | mat r c => obtain ⟨s, rfl, _⟩ := hasShape_mat ha; cases hv
  case cross =>
    obtain ⟨hne, v, hv⟩ := one h
    refine ⟨hne, Or.inl ?_⟩
    cases σ with
    | num => obtain ⟨s, rfl⟩ := hasShape_num ha; cases hv
    | mat r c => obtain ⟨s, rfl, _⟩ := hasShape_mat ha; cases hv
    | vec n =>
      obtain ⟨s, rfl, hs, _⟩ := hasShape_vec ha
      cases τ with
      | num => obtain ⟨s, rfl⟩ := hasShape_num hb; cases hv
      | mat r c => obtain ⟨s, rfl, _⟩ := hasShape_mat hb; cases hv
      | vec m =>
        obtain ⟨t, rfl, ht, _⟩ := hasShape_vec hb
        by_cases e : s.length = t.length
        · by_cases e3 : s.length ≤ 3
          · exact ⟨.vec 3, by simp only; rw [if_pos ⟨by omega, by omega⟩]⟩
          · exact (cannot_err hv (vcross_err2 s t e (by omega))).elim
        · exact (cannot_err hv (vcross_err1 s t e)).elim
  case pow =>
    obtain ⟨hne, v, hv⟩ := one h
    refine ⟨hne, ?_⟩
    cases σ with
    | vec n => obtain ⟨s, rfl, _⟩ := hasShape_vec ha; cases hv
    | num =>
      obtain ⟨s, rfl⟩ := hasShape_num ha
      cases τ with
      | num => exact Or.inl ⟨_, rfl⟩
      | vec n => obtain ⟨s, rfl, _⟩ := hasShape_vec hb; cases hv
      | mat r c => obtain ⟨s, rfl, _⟩ := hasShape_mat hb; cases hv
    | mat r c =>
      obtain ⟨s, rfl, _⟩ := hasShape_mat ha
      cases τ with
      | num => exact Or.inr ⟨trivial, r, c, rfl, rfl⟩
      | vec n => obtain ⟨s, rfl, _⟩ := hasShape_vec hb; cases hv
      | mat r c => obtain ⟨s, rfl, _⟩ := hasShape_mat hb; cases hv
  case get =>
    obtain ⟨hne, v, hv⟩ := one h
    refine ⟨hne, Or.inl ?_⟩
    cases σ with
    | num => obtain ⟨s, rfl⟩ := hasShape_num ha; cases hv
    | mat r c => obtain ⟨s, rfl, _⟩ := hasShape_mat ha; cases hv
    | vec n =>
      obtain ⟨s, rfl, hs, _⟩ := hasShape_vec ha
      cases τ with
      | num => exact ⟨_, rfl⟩
      | vec n => obtain ⟨s, rfl, _⟩ := hasShape_vec hb; cases hv
      | mat r c => obtain ⟨s, rfl, _⟩ := hasShape_mat hb; cases hv
  case root =>
    obtain ⟨hne, v, hv⟩ := one h
    refine ⟨hne, Or.inl ?_⟩
    cases σ with
    | vec n => obtain ⟨s, rfl, _⟩ := hasShape_vec ha; cases b <;> cases hv
    | mat r c => obtain ⟨s, rfl, _⟩ := hasShape_mat ha; cases b <;> cases hv
    | num =>
      obtain ⟨s, rfl⟩ := hasShape_num ha
      cases τ with
      | num => exact ⟨_, rfl⟩
      | vec n => obtain ⟨s, rfl, _⟩ := hasShape_vec hb; cases hv
      | mat r c => obtain ⟨s, rfl, _⟩ := hasShape_mat hb; cases hv
  case abs =>
    obtain ⟨hne, v, hv⟩ := one h
    refine ⟨hne, Or.inl ?_⟩
    cases σ with
    | num => exact ⟨_, rfl⟩
    | vec n => exact ⟨_, rfl⟩
    | mat r c => obtain ⟨s, rfl, _⟩ := hasShape_mat ha; cases hv
  case det =>
    obtain ⟨hne, v, hv⟩ := one h
    refine ⟨hne, Or.inl ?_⟩
    cases σ with
    | num => obtain ⟨s, rfl⟩ := hasShape_num ha; cases hv
    | vec n => obtain ⟨s, rfl, _⟩ := hasShape_vec ha; cases hv
    | mat r c =>
      obtain ⟨s, rfl, hs, hr, hc⟩ := hasShape_mat ha
      by_cases e : r = c
      · exact ⟨.num, by simp only; rw [if_pos e]⟩
      · exact (cannot_err hv (detM_err hr e hs)).elim
  case inv =>
    obtain ⟨hne, v, hv⟩ := one h
    refine ⟨hne, Or.inl ?_⟩
    cases σ with
    | num => obtain ⟨s, rfl⟩ := hasShape_num ha; cases hv
    | vec n => obtain ⟨s, rfl, _⟩ := hasShape_vec ha; cases hv
    | mat r c =>
      obtain ⟨s, rfl, hs, hr, hc⟩ := hasShape_mat ha
      by_cases e : r = c
      · exact ⟨.mat r c, by simp only; rw [if_pos e]⟩
      · simp only [vInv, invM] at hv
        rw [detM_err hr e hs] at hv
        cases hv
  case parenths => cases h; exact ⟨by simp, Or.inl ⟨σ, rfl⟩⟩
  all_goals
    obtain ⟨hne, v, hv⟩ := one h
    refine ⟨hne, Or.inl ?_⟩
    cases σ with
    | vec n => obtain ⟨s, rfl, _⟩ := hasShape_vec ha; cases hv
    | mat r c => obtain ⟨s, rfl, _⟩ := hasShape_mat ha; cases hv
    | num => exact ⟨_, rfl⟩

theorem flatten_ne_nil {α : Type} {L : List (List α)} (h : L ≠ []) (h' : ∀ l ∈ L, l ≠ []) : L.flatten ≠ [] := by
  cases L with
  | nil => exact absurd rfl h
  | cons l L =>
    have := h' l (by simp)
    cases l with
    | nil => exact absurd rfl this
    | cons a l => simp

theorem forall₂_ne_nil {α β : Type} {R : α → β → Prop} {l : List α} {l' : List β} (h : List.Forall₂ R l l') (hne : l ≠ []) : l' ≠ [] := by
  cases h with
  | nil => exact absurd rfl hne
  | cons _ _ => simp

theorem forall₂_right {α β : Type} {R : α → β → Prop} {l : List α} {l' : List β} (h : List.Forall₂ R l l') {b : β} (hb : b ∈ l') :
    ∃ a ∈ l, R a b := by
  induction h with
  | nil => simp at hb
  | cons h1 _ ih =>
    rcases List.mem_cons.1 hb with rfl | hb
    · exact ⟨_, by simp, h1⟩
    · obtain ⟨a, ha, h⟩ := ih hb
      exact ⟨a, by simp [ha], h⟩

theorem forall₂_left {α β : Type} {R : α → β → Prop} {l : List α} {l' : List β} (h : List.Forall₂ R l l') {a : α} (ha : a ∈ l) :
    ∃ b ∈ l', R a b := by
  induction h with
  | nil => simp at ha
  | cons h1 _ ih =>
    rcases List.mem_cons.1 ha with rfl | ha
    · exact ⟨_, by simp, h1⟩
    · obtain ⟨a, ha, h⟩ := ih ha
      exact ⟨a, by simp [ha], h⟩

theorem applyAll_ok {op : SimpleOp} {lv rv vs : List (Value F)} (hl : lv ≠ []) (hr : rv ≠ []) (h : applyAll op lv rv = .ok vs) :
    (∀ i ∈ lv, ∀ j ∈ rv, ∃ u, applyOp op i j = .ok u) ∧ ((∀ i ∈ lv, ∀ j ∈ rv, ∀ u, applyOp op i j = .ok u → u ≠ []) → vs ≠ []) := by
  unfold applyAll at h
  obtain ⟨res, h1, h2⟩ := bind_eq_ok.1 h
  cases h2
  have h1 := mapM_eq_ok.1 h1
  constructor
  · intro i hi j hj
    obtain ⟨b, _, hb⟩ := forall₂_left h1 hi
    obtain ⟨r, h3, h4⟩ := bind_eq_ok.1 hb
    obtain ⟨u, _, hu⟩ := forall₂_left (mapM_eq_ok.1 h3) hj
    exact ⟨u, hu⟩
  · intro hne
    refine flatten_ne_nil (forall₂_ne_nil h1 hl) fun l hl' => ?_
    obtain ⟨i, hi, hb⟩ := forall₂_right h1 hl'
    obtain ⟨r, h3, h4⟩ := bind_eq_ok.1 hb
    cases h4
    refine flatten_ne_nil (forall₂_ne_nil (mapM_eq_ok.1 h3) hr) fun l hl'' => ?_
    obtain ⟨j, hj, hu⟩ := forall₂_right (mapM_eq_ok.1 h3) hl''
    exact hne i hi j hj l hu

theorem allScalars_ok' {e : EvalError} {vs : List (Value F)} {l : List F} (h : allScalars e vs = .ok l) : AllShape .num vs ∧ (vs ≠ [] → l ≠ []) := by
  unfold allScalars at h
  have h := mapM_eq_ok.1 h
  refine ⟨fun v hv => ?_, fun hne => forall₂_ne_nil h hne⟩
  obtain ⟨s, _, hs⟩ := forall₂_left h hv
  cases v with
  | scalar s => trivial
  | vector l => cases hs
  | matrix m => cases hs

theorem shape_unique {v : Value F} {σ τ : Shape} (h : HasShape v σ) (h' : HasShape v τ) : σ = τ := by
  cases σ with
  | num =>
    obtain ⟨s, rfl⟩ := hasShape_num h
    cases τ <;> first | rfl | exact absurd h' id
  | vec n =>
    obtain ⟨s, rfl, h1, _⟩ := hasShape_vec h
    cases τ with
    | num => exact absurd h' id
    | vec m => rw [← h1, h'.1]
    | mat r c => exact absurd h' id
  | mat r c =>
    obtain ⟨m, rfl, h1, hr, _⟩ := hasShape_mat h
    cases τ with
    | num => exact absurd h' id
    | vec m => exact absurd h' id
    | mat r' c' =>
      have e1 : r = r' := by rw [← h1.1, h'.1]
      have hm : m ≠ [] := by intro e; subst e; have := h1.1; simp at this; omega
      obtain ⟨row, hrow⟩ := List.exists_mem_of_ne_nil m hm
      rw [e1, ← h1.2 row hrow, h'.2.1 row hrow]

theorem all_unique {vs : List (Value F)} {σ τ : Shape} (hne : vs ≠ []) (h : AllShape σ vs) (h' : AllShape τ vs) : σ = τ := by
  obtain ⟨v, hv⟩ := List.exists_mem_of_ne_nil vs hne
  exact shape_unique (h v hv) (h' v hv)

theorem ctxAll_reset {Γ : Str → Option Shape} {c : Context F} (h : CtxAllShaped Γ c) (x : Str) (p : F) :
    CtxAllShaped (setShape Γ x .num) ((c.removeVar x).addVar ⟨x, [.scalar p]⟩) := by
  refine ⟨ctxShaped_reset h.1 x p, fun y vs hy => ?_⟩
  rw [findVar_add, findVar_removeVar] at hy
  unfold setShape
  split at hy
  · rename_i e
    cases hy
    exact ⟨by simp, .num, by rw [if_pos e]⟩
  · rename_i e
    rw [if_neg e]
    try rw [if_neg e] at hy
    exact h.2 y vs hy

theorem ctxAll_call {Γ : Str → Option Shape} {c : Context F} (h : CtxAllShaped Γ c) (params : List Str) {args : List (Value F)} {σs : List Shape}
    (ha : List.Forall₂ HasShape args σs) : CtxAllShaped (callShapes Γ params σs) ⟨callVars params args c.vars, c.funs⟩ := by
  refine ⟨ctxShaped_call h.1 params ha, fun y vs hy => ?_⟩
  have hfind : (⟨callVars params args c.vars, c.funs⟩ : Context F).findVar y =
      ((((params.zip args).map fun np => (⟨np.1, [np.2]⟩ : Variable F)).find? fun w => w.name == y).or
        (c.vars.find? fun w => w.name == y)).map (·.values) := by
    unfold Context.findVar callVars
    rw [find_callVars]
  rw [hfind] at hy
  unfold callShapes
  have key : (∃ v τ, ((params.zip args).map fun np => (⟨np.1, [np.2]⟩ : Variable F)).find? (fun w => w.name == y) = some ⟨y, [v]⟩ ∧
        (params.zip σs).find? (fun p => p.1 == y) = some (y, τ)) ∨
      (((params.zip args).map fun np => (⟨np.1, [np.2]⟩ : Variable F)).find? (fun w => w.name == y) = none ∧
        (params.zip σs).find? (fun p => p.1 == y) = none) := by
    clear hfind hy
    induction ha generalizing params with
    | nil => right; simp
    | cons h1 _ ih =>
      cases params with
      | nil => right; simp
      | cons p ps =>
        simp only [List.zip_cons_cons, List.map_cons, List.find?_cons]
        by_cases e : p = y
        · subst e
          left
          exact ⟨‹Value F›, ‹Shape›, by simp, by simp⟩
        · have e' : (p == y) = false := by simpa using e
          rw [e']
          exact ih ps
  rcases key with ⟨v, τ, h1, h2⟩ | ⟨h1, h2⟩
  · rw [h2]
    rw [h1] at hy
    cases hy
    exact ⟨by simp, τ, rfl⟩
  · rw [h2]
    rw [h1] at hy
    exact h.2 y vs hy

theorem single_fromValue {v : Value F} {σ : Shape} (h : HasShape v σ) : Single (AST.fromValue v) := by
  cases σ with
  | num => obtain ⟨s, rfl⟩ := hasShape_num h; exact .scalar s
  | vec n =>
    obtain ⟨s, rfl, rfl, hn⟩ := hasShape_vec h
    refine .vector _ (by intro e; simp at e; subst e; simp at hn) fun a ha => ?_
    obtain ⟨x, _, rfl⟩ := List.mem_map.1 ha
    exact .scalar x
  | mat r c =>
    obtain ⟨m, rfl, ⟨rfl, hm⟩, hr, hc⟩ := hasShape_mat h
    refine .matrix _ c (by intro e; simp at e; subst e; simp at hr) hc (fun row hrow => ?_) fun row hrow a ha => ?_
    · obtain ⟨row', h', rfl⟩ := List.mem_map.1 hrow
      rw [List.length_map, hm row' h']
    · obtain ⟨row', h', rfl⟩ := List.mem_map.1 hrow
      obtain ⟨x, _, rfl⟩ := List.mem_map.1 ha
      exact .scalar x

theorem choice_shapes {σs : List Shape} {vals : List (List (Value F))} {p : List (Value F)} (h : List.Forall₂ AllShape σs vals)
    (hp : List.Forall₂ (fun x l => x ∈ l) p vals) : List.Forall₂ HasShape p σs := by
  induction hp generalizing σs with
  | nil => cases h; exact .nil
  | cons k1 _ ih =>
    cases h with
    | cons k2 k3 => exact .cons (k2 _ k1) (ih k3)

theorem args_shapes {φ : Str → Option (Function F)} {Γ : Str → Option Shape} {w : Str} {args : List (AST F)} {vals : List (List (Value F))}
    {ev : AST F → Out EvalError (List (Value F))} (h : List.Forall₂ (fun a us => ev a = .ok us) args vals)
    (hev : ∀ a ∈ args, ∀ us, ev a = .ok us → ¬ DirectCall w a ∧ us ≠ [] ∧ ∃ σ, Shaped False True φ Γ a σ ∧ AllShape σ us) :
    ∃ σs : List Shape, σs.length = args.length ∧ (∀ p ∈ args.zip σs, Shaped False True φ Γ p.1 p.2) ∧
      (∀ a ∈ args, ¬ DirectCall w a) ∧ List.Forall₂ AllShape σs vals ∧ ∀ l ∈ vals, l ≠ [] := by
  induction h with
  | nil => exact ⟨[], rfl, by simp, by simp, .nil, by simp⟩
  | cons ha _ iha =>
    obtain ⟨σs, e1, e2, e3, e4, e5⟩ := iha fun a ha => hev a (by simp [ha])
    obtain ⟨k1, k2, σ, k3, k4⟩ := hev _ (by simp) _ ha
    refine ⟨σ :: σs, by simp [e1], ?_, ?_, .cons k4 e4, ?_⟩
    · intro p hp
      rcases List.mem_cons.1 hp with rfl | hp
      · exact k3
      · exact e2 p hp
    · intro a ha
      rcases List.mem_cons.1 ha with rfl | ha
      · exact k1
      · exact e3 a ha
    · intro l hl
      rcases List.mem_cons.1 hl with rfl | hl
      · exact k2
      · exact e5 l hl

/-- An expression that can be evaluated has a shape. -/
theorem evalRec_shape (cfg : Cfg) {φ : Str → Option (Function F)} (n : Nat) {Γ : Str → Option Shape} {b : AST F} (hb : Single b)
    {c : Context F} (hd : NoDupVars c) (hc : CtxAllShaped Γ c) (hφ : c.findFun = φ)
    (hin : ∀ f ∈ c.funs, f.inputs.Nodup ∧ f.name ≠ [] ∧ Single f.ast) {w : Str} {vs : List (Value F)} (h : evalRec cfg n b c w = .ok vs) :
    ¬ DirectCall w b ∧ vs ≠ [] ∧ ∃ σ, Shaped False True φ Γ b σ ∧ AllShape σ vs := by
  have fine : ∀ {n : Nat} {Γ : Str → Option Shape} {b : AST F} {c : Context F} {w : Str} {vs : List (Value F)} {σ : Shape}, NoDupVars c →
      CtxAllShaped Γ c → c.findFun = φ → (∀ f ∈ c.funs, f.inputs.Nodup ∧ f.name ≠ [] ∧ Single f.ast) → evalRec cfg n b c w = .ok vs →
      ¬ DirectCall w b → Shaped False True φ Γ b σ → AllShape σ vs := by
    intro n Γ b c w vs σ hd hc hφ hin h hw hs
    have := evalRec_fine cfg (eqs := False) (fun h => h.elim) n hs hd hc.1 hφ (fun f hf => (hin f hf).1) hw
    rw [h] at this
    exact this
  induction n generalizing b c w Γ vs with
  | zero => cases h
  | succ n ih =>
    -- it is enough to give the first and the third part
    suffices hs : ¬ DirectCall w b ∧ vs ≠ [] ∧ ∃ σ, Shaped False True φ Γ b σ by
      obtain ⟨h1, h2, σ, h3⟩ := hs
      exact ⟨h1, h2, σ, h3, fine hd hc hφ hin h h1 h3⟩
    cases hb with
    | scalar s =>
      simp only [evalRec] at h
      cases h
      exact ⟨(fun hh => by cases hh), by simp, .num, .scalar s⟩
    | vector v hne hv =>
      simp only [evalRec] at h
      obtain ⟨fields, hf, h⟩ := bind_eq_ok.1 h
      cases h
      have hf := mapM_eq_ok.1 hf
      have each : ∀ a ∈ v, ¬ DirectCall w a ∧ Shaped False True φ Γ a .num := by
        intro a ha
        obtain ⟨l, _, hl⟩ := forall₂_left hf ha
        obtain ⟨us, h1, h2⟩ := bind_eq_ok.1 hl
        obtain ⟨h3, h4, σ, h5, h6⟩ := ih (hv a ha) hd hc hφ hin h1
        have := all_unique h4 h6 (allScalars_ok' h2).1
        subst this
        exact ⟨h3, h5⟩
      refine ⟨?_, ?_, _, .vector v hne fun a ha => (each a ha).2⟩
      · intro hh
        cases hh with
        | vector _ a ha hh => exact (each a ha).1 hh
      · rw [cartProd_eq_choices]
        intro e
        refine choices_ne_nil (fun l hl => ?_) (List.map_eq_nil_iff.1 e)
        obtain ⟨a, ha, hl⟩ := forall₂_right hf hl
        obtain ⟨us, h1, h2⟩ := bind_eq_ok.1 hl
        exact (allScalars_ok' h2).2 (ih (hv a ha) hd hc hφ hin h1).2.1
    | matrix m k hne hk hrect hm =>
      simp only [evalRec] at h
      obtain ⟨rows, hf, h⟩ := bind_eq_ok.1 h
      cases h
      have hf := mapM_eq_ok.1 hf
      have each : ∀ r ∈ m, ∀ a ∈ r, ¬ DirectCall w a ∧ Shaped False True φ Γ a .num := by
        intro r hr a ha
        obtain ⟨row, _, hrow⟩ := forall₂_left hf hr
        obtain ⟨l, _, hl⟩ := forall₂_left (mapM_eq_ok.1 hrow) ha
        obtain ⟨us, h1, h2⟩ := bind_eq_ok.1 hl
        obtain ⟨h3, h4, σ, h5, h6⟩ := ih (hm r hr a ha) hd hc hφ hin h1
        have := all_unique h4 h6 (allScalars_ok' h2).1
        subst this
        exact ⟨h3, h5⟩
      refine ⟨?_, ?_, _, .matrix m k hne hk hrect fun r hr a ha => (each r hr a ha).2⟩
      · intro hh
        cases hh with
        | matrix _ r a hr ha hh => exact (each r hr a ha).1 hh
      · rw [cartProd_eq_choices]
        intro e
        refine choices_ne_nil (fun l hl => ?_) (List.map_eq_nil_iff.1 e)
        obtain ⟨row, hrow, rfl⟩ := List.mem_map.1 hl
        rw [cartProd_eq_choices]
        refine choices_ne_nil fun x hx => ?_
        obtain ⟨r, hr, hrow'⟩ := forall₂_right hf hrow
        obtain ⟨a, ha, hl⟩ := forall₂_right (mapM_eq_ok.1 hrow') hx
        obtain ⟨us, h1, h2⟩ := bind_eq_ok.1 hl
        exact (allScalars_ok' h2).2 (ih (hm r hr a ha) hd hc hφ hin h1).2.1
    | «variable» x =>
      simp only [evalRec] at h
      cases hx : c.findVar x with
      | none => rw [hx] at h; cases h
      | some us =>
        rw [hx] at h
        cases h
        obtain ⟨h1, σ, h2⟩ := hc.2 x _ hx
        exact ⟨(fun hh => by cases hh), h1, σ, .variable x σ h2⟩
    | function g args hargs =>
      simp only [evalRec] at h
      split at h
      · cases h
      · rename_i hwg
        split at h
        · cases h
        · rename_i f hg
          split at h
          · cases h
          · rename_i hlen
            have hlen : args.length = f.inputs.length := by simpa using hlen
            obtain ⟨vals, h1, h⟩ := bind_eq_ok.1 h
            obtain ⟨res, h2, h⟩ := bind_eq_ok.1 h
            cases h
            have h1 := mapM_eq_ok.1 h1
            have h2 := mapM_eq_ok.1 h2
            have hσs := args_shapes h1 fun a ha us hus => ih (hargs a ha) hd hc hφ hin hus
            obtain ⟨σs, e1, e2, e3, e4, e5⟩ := hσs
            rw [cartProd_eq_choices] at h2
            have hfm := hin f (List.mem_of_find?_eq_some hg)
            have hname : f.name = g := by simpa using List.find?_some hg
            have shapes : ∀ p ∈ choices vals, List.Forall₂ HasShape p σs := fun p hp => choice_shapes e4 (choices_forall₂ hp)
            have body : ∀ p ∈ choices vals, ∀ r, evalRec cfg n f.ast ⟨callVars f.inputs p c.vars, c.funs⟩ g = .ok r →
                r ≠ [] ∧ ∃ τ, Shaped False True φ (callShapes Γ f.inputs σs) f.ast τ := by
              intro p hp r hr
              obtain ⟨_, k2, τ, k3, _⟩ := ih hfm.2.2 (noDup_call hfm.1) (ctxAll_call hc _ (shapes p hp)) hφ hin hr
              exact ⟨k2, τ, k3⟩
            have hne := choices_ne_nil e5
            obtain ⟨p, hp⟩ := List.exists_mem_of_ne_nil _ hne
            obtain ⟨r, _, hr⟩ := forall₂_left h2 hp
            obtain ⟨_, τ, hτ⟩ := body p hp r hr
            refine ⟨?_, ?_, τ, .function g f args σs τ (hname ▸ hfm.2.1) (by rw [← hφ]; exact hg) hlen e1 e2 hτ⟩
            · intro hh
              cases hh with
              | here _ => exact hwg rfl
              | arg _ _ a ha hh => exact e3 a ha hh
            · refine flatten_ne_nil (forall₂_ne_nil h2 hne) fun l hl => ?_
              obtain ⟨q, hq, hl⟩ := forall₂_right h2 hl
              exact (body q hq l hl).1
    | simple op l r hl hr =>
      simp only [evalRec] at h
      obtain ⟨lv, h1, h⟩ := bind_eq_ok.1 h
      obtain ⟨rv, h2, h⟩ := bind_eq_ok.1 h
      obtain ⟨k1, k2, σ, k3, k4⟩ := ih hl hd hc hφ hin h1
      obtain ⟨j1, j2, τ, j3, j4⟩ := ih hr hd hc hφ hin h2
      obtain ⟨hok, hne⟩ := applyAll_ok k2 j2 h
      have hw : ¬ DirectCall w (.simple op l r) := by
        intro hh
        cases hh with
        | left _ _ _ hh => exact k1 hh
        | right _ _ _ hh => exact j1 hh
      refine ⟨hw, hne fun i hi j hj u hu => (shape_of_ok op (k4 i hi) (j4 j hj) hu).1, ?_⟩
      obtain ⟨i, hi⟩ := List.exists_mem_of_ne_nil _ k2
      obtain ⟨j, hj⟩ := List.exists_mem_of_ne_nil _ j2
      obtain ⟨u, hu⟩ := hok i hi j hj
      rcases (shape_of_ok op (k4 i hi) (j4 j hj) hu).2 with ⟨ρ, hρ⟩ | ⟨rfl, p, q, rfl, rfl⟩
      · exact ⟨ρ, .simple _ _ _ _ _ _ k3 j3 hρ⟩
      · exact ⟨_, .power _ _ _ _ trivial k3 j3⟩
    | derivative e x a he ha =>
      simp only [evalRec] at h
      obtain ⟨lv, h1, h⟩ := bind_eq_ok.1 h
      obtain ⟨res, h2, h⟩ := bind_eq_ok.1 h
      cases h
      obtain ⟨k1, k2, σ, k3, k4⟩ := ih ha hd hc hφ hin h1
      have h2 := mapM_eq_ok.1 h2
      have each : ∀ v ∈ lv, ∀ us, calculateDerivative cfg (fun a c => evalRec cfg n a c []) e x v c = .ok us →
          HasShape v .num ∧ us ≠ [] ∧ ∃ ρ, Shaped False True φ (setShape Γ x .num) e ρ := by
        intro v hv us hus
        unfold calculateDerivative at hus
        cases v with
        | vector l => cases hus
        | matrix m => cases hus
        | scalar s =>
          simp only [dropVar_eq] at hus
          obtain ⟨fxs, f1, hus⟩ := bind_eq_ok.1 hus
          obtain ⟨fxhs, f2, hus⟩ := bind_eq_ok.1 hus
          have hc1 := ctxAll_reset hc x s
          have hd1 : NoDupVars ((c.removeVar x).addVar ⟨x, [.scalar s]⟩) := noDup_add (noDup_remove hd x) _
          have hc2 := ctxAll_reset hc1 x (add s (powi (ofInt 10) (-(cfg.prec : Int))))
          have hΓ : setShape (setShape Γ x .num) x .num = setShape Γ x .num := by
            funext y
            unfold setShape
            split <;> rfl
          rw [hΓ] at hc2
          have hd2 : NoDupVars ((((c.removeVar x).addVar ⟨x, [.scalar s]⟩).removeVar x).addVar
            ⟨x, [.scalar (add s (powi (ofInt 10) (-(cfg.prec : Int))))]⟩) := noDup_add (noDup_remove hd1 x) _
          obtain ⟨_, i2, ρ, i3, i4⟩ := ih he hd1 hc1 hφ hin f1
          obtain ⟨_, _, ρ', i3', i4'⟩ := ih he hd2 hc2 hφ hin f2
          refine ⟨trivial, ?_, ρ, i3⟩
          split at hus
          · cases hus
          · rename_i hlen
            have hlen : fxs.length = fxhs.length := by simpa using hlen
            obtain ⟨rs, r1, hus⟩ := bind_eq_ok.1 hus
            cases hus
            have r1 := mapM_eq_ok.1 r1
            refine flatten_ne_nil (forall₂_ne_nil r1 ?_) fun l hl => ?_
            · cases fxs with
              | nil => exact absurd rfl i2
              | cons _ _ => simp [List.range_succ_eq_map]
            · obtain ⟨i, hi, hr⟩ := forall₂_right r1 hl
              have hi : i < fxs.length := List.mem_range.1 hi
              rw [idx_lt (show i < fxhs.length by omega), ok_bind, idx_lt hi, ok_bind] at hr
              have hq : Single (differenceQuotient cfg (fxhs[i]'(by omega)) fxs[i]) :=
                .simple _ _ _ (.simple _ _ _ (single_fromValue (i4' _ (List.getElem_mem _))) (single_fromValue (i4 _ (List.getElem_mem _))))
                  (single_fromValue (σ := .num) trivial)
              exact (ih hq hd2 hc2 hφ hin hr).2.1
      refine ⟨?_, ?_, ?_⟩
      · intro hh
        cases hh with
        | at_ _ _ _ hh => exact k1 hh
      · refine flatten_ne_nil (forall₂_ne_nil h2 k2) fun l hl => ?_
        obtain ⟨v, hv, hl⟩ := forall₂_right h2 hl
        exact (each v hv l hl).2.1
      · obtain ⟨v, hv⟩ := List.exists_mem_of_ne_nil _ k2
        obtain ⟨us, _, hus⟩ := forall₂_left h2 hv
        obtain ⟨q1, q2, ρ, q3⟩ := each v hv us hus
        have := shape_unique (k4 v hv) q1
        subst this
        exact ⟨ρ, .derivative e x a ρ k3 q3⟩

/-! ## the statements -/

/-- **C100** (results). With variables of the shapes `Γ`, all results of an expression of the shape `σ` have the shape `σ`: so many entries, so
many rows and columns, whatever the numbers are. This includes equations (the start values of the search have to be finite numbers). -/
theorem C100_results (cfg : Cfg) (eqs pows : Prop) (ctx : Context F) (Γ : Str → Option Shape) (b : AST F) (σ : Shape)
    (hb : Shaped eqs pows ctx.findFun Γ b σ) (hd : NoDupVars ctx) (hc : CtxShaped Γ ctx) (hin : ∀ f ∈ ctx.funs, f.inputs.Nodup)
    (hstart : eqs → ∀ j : Int, -1000 ≤ j → j < 1000 → IsFinite (FArith.ofInt j : F)) (vs : List (Value F))
    (h : Finishes (fun n => eval cfg n b ctx) (.ok vs)) : ∀ v ∈ vs, HasShape v σ := by
  obtain ⟨_, n, hn⟩ := h
  have := evalRec_fine cfg hstart n hb hd hc rfl hin (w := []) (no_empty_call hb)
  simp only [eval] at hn
  rw [hn] at this
  exact this

/-- **C100** (failures). An expression with a shape (without equations and powers of matrices that are not square) never panics, and it fails only
for one of the six reasons that depend on the numbers: an exponent or index that is not a (positive) integer, an index that is too large, a
singular matrix, or a derivative with a varying number of values. In particular no name is missing, no number of arguments is wrong, no function
calls itself and no operand has the wrong kind or size. -/
theorem C100_failures (cfg : Cfg) (ctx : Context F) (Γ : Str → Option Shape) (b : AST F) (σ : Shape) (hb : Shaped False False ctx.findFun Γ b σ)
    (hd : NoDupVars ctx) (hc : CtxShaped Γ ctx) (hin : ∀ f ∈ ctx.funs, f.inputs.Nodup) (r : Out EvalError (List (Value F)))
    (h : Finishes (fun n => eval cfg n b ctx) r) : (∃ vs, r = .ok vs ∧ ∀ v ∈ vs, HasShape v σ) ∨ ∃ e, r = .err e ∧ DependsOnNumbers e := by
  obtain ⟨hr, n, hn⟩ := h
  have := evalRec_fine cfg (fun h => h.elim) n hb hd hc rfl hin (w := []) (no_empty_call hb)
  simp only [eval] at hn
  rw [hn] at this
  cases r with
  | ok vs => exact Or.inl ⟨vs, rfl, this⟩
  | err e => exact Or.inr ⟨e, rfl, this.resolve_left (by simp)⟩
  | panic => exact absurd this (by simp [Fine])
  | timeout => exact absurd rfl hr

/-- **C100** (conversely). If an expression without lists, integrals and equations can be evaluated at all, then it has a shape. -/
theorem C100_converse (cfg : Cfg) (ctx : Context F) (Γ : Str → Option Shape) (b : AST F) (hb : Single b) (hd : NoDupVars ctx)
    (hc : CtxAllShaped Γ ctx) (hin : ∀ f ∈ ctx.funs, f.inputs.Nodup ∧ f.name ≠ [] ∧ Single f.ast) (vs : List (Value F))
    (h : Finishes (fun n => eval cfg n b ctx) (.ok vs)) : vs ≠ [] ∧ ∃ σ, Shaped False True ctx.findFun Γ b σ ∧ ∀ v ∈ vs, HasShape v σ := by
  obtain ⟨_, n, hn⟩ := h
  exact (evalRec_shape cfg n hb hd hc rfl hin hn).2

/-- **C100** (text). The same for a text. -/
theorem C100_text [UTable] (cfg : Cfg) (ctx : Context F) (Γ : Str → Option Shape) (s : Str) (b : AST F) (σ : Shape) (hp : parse cfg s = .ok b)
    (hb : Shaped False False ctx.findFun Γ b σ) (hd : NoDupVars ctx) (hc : CtxShaped Γ ctx) (hin : ∀ f ∈ ctx.funs, f.inputs.Nodup)
    (r : Out QuickEvalError (List (Value F))) (h : Finishes (fun n => quickEval cfg n s ctx) r) :
    (∃ vs, r = .ok vs ∧ ∀ v ∈ vs, HasShape v σ) ∨ ∃ e, r = .err (.evalError e) ∧ DependsOnNumbers e := by
  obtain ⟨hr, n, hn⟩ := h
  have hq : (eval cfg n b ctx).mapErr QuickEvalError.evalError = r := by
    rw [← hn]
    unfold quickEval
    rw [hp]
    rfl
  have hne : eval cfg n b ctx ≠ .timeout := by
    intro e
    rw [e] at hq
    exact hr hq.symm
  rcases C100_failures cfg ctx Γ b σ hb hd hc hin _ ⟨hne, n, rfl⟩ with ⟨vs, h1, h2⟩ | ⟨e, h1, h2⟩
  · rw [h1] at hq
    exact Or.inl ⟨vs, hq.symm, h2⟩
  · rw [h1] at hq
    exact Or.inr ⟨e, hq.symm, h2⟩

/-- **C100** (finding). An integral whose bounds are equal is the number 0, also if the integrand is a vector: this is why only integrals of numbers
have a shape. -/
theorem C100_equal_bounds (cfg : Cfg) (ctx : Context F) (e : AST F) (x : Str) (a : F) (ha : beq a a = true) :
    Finishes (fun n => eval cfg n (.integral e x (.scalar a) (.scalar a)) ctx) (.ok [.scalar (ofInt 0)]) := by
  refine ⟨by simp, 2, ?_⟩
  simp only [eval, evalRec, ok_bind, List.mapM_cons, List.mapM_nil, calculateIntegral, ha, if_true, pure_eq]
  rfl

/-- **C100** (finding). A matrix that is not square can be raised to the power 0 (or a negative integer): the result is a matrix of the same size, with
ones on the diagonal. With a positive exponent this is an error. -/
theorem C100_not_square (r c : Nat) (hr : 0 < r) (hrc : r ≠ c) (m : List (List F)) (hm : m.length = r ∧ ∀ row ∈ m, row.length = c) (k : F)
    (hk : beq (round k) k = true) :
    (toI32 k ≤ 0 → vPow (.matrix m) (.scalar k) = .ok (.matrix ((List.range r).map fun i => (List.range c).map fun j => if i = j then ofInt 1 else ofInt 0))) ∧
    (0 < toI32 k → vPow (.matrix m) (.scalar k) = .err "Matrices have incompatible dimensions!") := by
  have h := mspow_not_square hr hrc (a := m) hm k hk
  simp only [vPow]
  constructor
  · intro h0
    rw [h, if_pos (by omega)]
    rfl
  · intro h0
    rw [h, if_neg (by omega)]

/-! ## an example: a 3 × 2 matrix `M`, a vector `v` with 2 entries, `f(u) = u*u` -/

section example_
attribute [local instance] UTable.ascii

/-- the context of the example -/
def shapeCtx (M : List (List F)) (v : List F) : Context F :=
  ⟨[⟨str! "M", [.matrix M]⟩, ⟨str! "v", [.vector v]⟩], [⟨str! "f", .simple .mult (.variable (str! "u")) (.variable (str! "u")), [str! "u"]⟩]⟩

/-- the shapes of the example -/
def shapeEnv : Str → Option Shape := fun x => if x = str! "M" then some (.mat 3 2) else if x = str! "v" then some (.vec 2) else none

theorem shapeCtx_ok (M : List (List F)) (v : List F) (hM : M.length = 3 ∧ ∀ r ∈ M, r.length = 2) (hv : v.length = 2) :
    CtxAllShaped shapeEnv (shapeCtx M v) := by
  have hfind : ∀ x, (shapeCtx M v).findVar x = if x = str! "M" then some [.matrix M] else if x = str! "v" then some [.vector v] else none := by
    intro x
    simp only [shapeCtx, Context.findVar, List.find?_cons, List.find?_nil]
    by_cases h1 : x = str! "M"
    · subst h1; simp
    · have e1 : ((str! "M" : Str) == x) = false := by simpa using fun e => h1 e.symm
      rw [if_neg h1, e1]
      by_cases h2 : x = str! "v"
      · subst h2; simp
      · have e2 : ((str! "v" : Str) == x) = false := by simpa using fun e => h2 e.symm
        rw [if_neg h2, e2]
        rfl
  constructor
  · intro x σ hx
    unfold shapeEnv at hx
    rw [hfind]
    split at hx
    · cases hx
      rename_i e
      rw [if_pos e]
      refine ⟨_, rfl, fun w hw => ?_⟩
      rcases List.mem_singleton.1 hw with rfl
      exact ⟨hM.1, hM.2, by decide, by decide⟩
    · rename_i e
      rw [if_neg e]
      split at hx
      · cases hx
        rename_i e'
        rw [if_pos e']
        refine ⟨_, rfl, fun w hw => ?_⟩
        rcases List.mem_singleton.1 hw with rfl
        exact ⟨hv, by decide⟩
      · cases hx
  · intro x vs hx
    rw [hfind] at hx
    unfold shapeEnv
    split at hx
    · rename_i e
      cases hx
      rw [if_pos e]
      exact ⟨by simp, _, rfl⟩
    · rename_i e
      rw [if_neg e]
      split at hx
      · rename_i e'
        cases hx
        rw [if_pos e']
        exact ⟨by simp, _, rfl⟩
      · cases hx

/-- `M*v` is a vector with 3 entries, so `f(M*v)*M` is again a 3 × 2 matrix. -/
theorem C100_example (cfg : Cfg) (M : List (List F)) (v : List F) (hM : M.length = 3 ∧ ∀ r ∈ M, r.length = 2) (hv : v.length = 2)
    (r : Out QuickEvalError (List (Value F))) (h : Finishes (fun n => quickEval cfg n (str! "f(M*v)*M") (shapeCtx M v)) r) :
    (∃ vs, r = .ok vs ∧ ∀ w ∈ vs, HasShape w (.mat 3 2)) ∨ ∃ e, r = .err (.evalError e) ∧ DependsOnNumbers e := by
  refine C100_text cfg _ shapeEnv _ (.simple .mult (.function (str! "f") [.simple .mult (.variable (str! "M")) (.variable (str! "v"))])
    (.variable (str! "M"))) _ rfl ?_ (by simp [NoDupVars, shapeCtx]) (shapeCtx_ok M v hM hv).1 (by simp [shapeCtx]) r h
  refine .simple _ _ _ .num (.mat 3 2) _ (.function _ _ _ [.vec 3] _ (by decide) rfl rfl rfl (fun p hp => ?_) ?_) (.variable _ _ rfl) rfl
  · rcases List.mem_singleton.1 hp with rfl
    exact .simple _ _ _ (.mat 3 2) (.vec 2) _ (.variable _ _ rfl) (.variable _ _ rfl) rfl
  · exact .simple _ _ _ (.vec 3) (.vec 3) _ (.variable _ _ rfl) (.variable _ _ rfl) rfl

/-- `M*M` has no shape (a 3 × 2 matrix cannot be multiplied by itself), so it cannot be evaluated. -/
theorem C100_example_none (cfg : Cfg) (M : List (List F)) (v : List F) (hM : M.length = 3 ∧ ∀ r ∈ M, r.length = 2) (hv : v.length = 2)
    (vs : List (Value F)) : ¬ Finishes (fun n => eval cfg n (.simple .mult (.variable (str! "M")) (.variable (str! "M"))) (shapeCtx M v)) (.ok vs) := by
  intro h
  obtain ⟨_, σ, hσ, _⟩ := C100_converse cfg (shapeCtx M v) shapeEnv _ (.simple _ _ _ (.variable _) (.variable _)) (by simp [NoDupVars, shapeCtx]) (shapeCtx_ok M v hM hv)
    (by
      intro f hf
      rcases List.mem_singleton.1 hf with rfl
      exact ⟨by simp, by simp, .simple _ _ _ (.variable _) (.variable _)⟩) vs h
  cases hσ with
  | simple _ _ _ σ τ _ h1 h2 h3 =>
    cases h1 with
    | «variable» _ _ h1 =>
      cases h2 with
      | «variable» _ _ h2 =>
        have e1 : shapeEnv (str! "M") = some (.mat 3 2) := rfl
        rw [e1] at h1 h2
        cases h1
        cases h2
        cases h3

end example_

end maths
end MUL
