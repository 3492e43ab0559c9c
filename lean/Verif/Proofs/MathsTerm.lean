import Verif.Model.Eval
import Verif.Proofs.OutLemmas
/-!
# The arithmetic functions return within their budget
-/

set_option linter.unusedSectionVars false
set_option linter.unusedTactic false
set_option linter.unreachableTactic false

namespace MUL
open Out

theorem Out.Term.foldlM {ε α β : Type} {f : β → α → Out ε β} (l : List α) (h : ∀ b a, a ∈ l → Term (f b a)) (b : β) :
    Term (l.foldlM f b) := by
  induction l generalizing b with
  | nil => exact term_ok _
  | cons a l ih =>
    simp only [List.foldlM_cons]
    exact Term.bind (h b a (by simp)) fun b' _ => ih (fun b a ha => h b a (by simp [ha])) b'

theorem Out.Term.ite {ε α : Type} {p : Prop} [Decidable p] {x y : Out ε α} (h : Term x) (h' : Term y) :
    Term (if p then x else y) := by
  split <;> assumption

theorem Out.Term.mapErr {ε ε' α : Type} {x : Out ε α} (f : ε → ε') (h : Term x) : Term (x.mapErr f) := by
  cases x <;> simp_all [Term, Out.mapErr]

/-- Discharges termination goals of programs made of indexing, loops and conditionals. -/
macro "term_tac" : tactic => `(tactic| repeat' (first
  | exact Out.term_ok _ | exact Out.term_err _ | exact Out.term_panic | exact idx_term _ _ | exact unwrap_term _
  | exact slice_term _ _ _
  | assumption
  | (refine Out.Term.bind ?_ (fun _ _ => ?_))
  | (refine Out.Term.mapM _ (fun _ _ => ?_))
  | (refine Out.Term.foldlM _ (fun _ _ _ => ?_) _)
  | (refine Out.Term.ite ?_ ?_)
  | split))

section
variable {F : Type} [FNum F]

theorem idx2_term {ε α : Type} (m : List (List α)) (i j : Nat) : Term (idx2 m i j : Out ε α) := by
  unfold idx2; term_tac

theorem vadd_term (a b : List F) : Term (vadd a b) := by unfold vadd; term_tac
theorem madd_term (a b : List (List F)) : Term (madd a b) := by
  unfold madd; term_tac <;> exact idx2_term _ _ _
theorem msub_term (a b : List (List F)) : Term (msub a b) := by
  unfold msub; term_tac <;> first | exact idx2_term _ _ _ | exact madd_term _ _
theorem smmult_term (a : F) (b : List (List F)) : Term (smmult a b) := by
  unfold smmult; term_tac <;> exact idx2_term _ _ _
theorem mmmult_term (a b : List (List F)) : Term (mmmult a b) := by
  unfold mmmult; term_tac <;> exact idx2_term _ _ _
theorem mvmult_term (a : List (List F)) (b : List F) : Term (mvmult a b) := by
  unfold mvmult; term_tac
theorem vvmult_term (a b : List F) : Term (vvmult a b) := by unfold vvmult; term_tac
theorem vvdiv_term (a b : List F) : Term (vvdiv a b) := by unfold vvdiv; term_tac
theorem vcross_term (a b : List F) : Term (vcross a b) := by unfold vcross; term_tac
theorem mspow_term (a : List (List F)) (b : F) : Term (mspow a b) := by
  unfold mspow; term_tac <;> exact mmmult_term _ _
theorem minor_term {ε : Type} (a : List (List F)) (i : Nat) : Term (minor a i : Out ε (List (List F))) := by
  unfold minor; term_tac

theorem minor_length {ε : Type} {a : List (List F)} {i : Nat} {m : List (List F)}
    (h : (minor a i : Out ε (List (List F))) = .ok m) : m.length = a.length - 1 := by
  have := (mapM_eq_ok.1 h).length_eq
  rw [← this]
  simp

theorem detFuel_term (n : Nat) (a : List (List F)) (h : a.length < n) : Term (detFuel n a) := by
  induction n generalizing a with
  | zero => omega
  | succ n ih =>
    unfold detFuel
    refine Term.bind (by term_tac) fun _ _ => Term.ite (term_err _) (Term.bind (idx_term _ _) fun a0 ha0 => ?_)
    refine Term.ite (term_err _) (Term.ite ?_ (Term.ite ?_ ?_))
    · term_tac <;> exact idx2_term _ _ _
    · term_tac <;> exact idx2_term _ _ _
    · refine Term.bind (Term.foldlM _ (fun s i _ => ?_) _) fun _ _ => term_ok _
      refine Term.bind (minor_term _ _) fun m hm => ?_
      refine Term.bind (idx2_term _ _ _) fun _ _ => Term.bind (ih m ?_) fun _ _ => ?_
      · have := minor_length hm
        have hne : a ≠ [] := by
          rintro rfl
          simp [idx, Out.unwrap] at ha0
        have := List.length_pos_iff.2 hne
        omega
      · term_tac

theorem detM_term (a : List (List F)) : Term (detM a) := detFuel_term _ _ (Nat.lt_succ_self _)

theorem elimStep_term {ε : Type} (z : ε) (v : List (List F)) (ij : Nat × Nat) : Term (elimStep z v ij) := by
  unfold elimStep; obtain ⟨i, j⟩ := ij; term_tac <;> exact idx2_term _ _ _

theorem eliminate_term {ε : Type} (z : ε) (v : List (List F)) : Term (eliminate z v) := by
  unfold eliminate
  exact Term.foldlM _ (fun _ _ _ => elimStep_term _ _ _) _

theorem invM_term (a : List (List F)) : Term (invM a) := by
  unfold invM
  have := detM_term a
  revert this
  cases detM a with
  | timeout => exact fun h => h
  | err e => exact fun _ => term_err _
  | panic => exact fun _ => term_panic
  | ok d =>
    intro _
    dsimp only
    refine Term.ite (term_err _) ?_
    refine Term.bind (eliminate_term _ _) fun _ _ => Term.bind (eliminate_term _ _) fun _ _ => ?_
    term_tac

theorem gauss_term (v : List (List F)) : Term (gaussAlgorithm v) := by
  unfold gaussAlgorithm
  refine Term.bind (idx_term _ _) fun _ _ => Term.ite (term_err _) ?_
  refine Term.bind (eliminate_term _ _) fun _ _ => Term.bind (eliminate_term _ _) fun _ _ => ?_
  term_tac

theorem vGet_term (a b : Value F) : Term (vGet a b) := by
  unfold vGet; term_tac

theorem vAdd_term (a b : Value F) : Term (vAdd a b) := by
  cases a <;> cases b <;> simp only [vAdd] <;> first | exact vadd_term _ _ | exact madd_term _ _ | exact term_err _ | exact term_ok _
theorem vSub_term (a b : Value F) : Term (vSub a b) := by
  cases a <;> cases b <;> simp only [vSub] <;> first | exact vadd_term _ _ | exact msub_term _ _ | exact term_err _ | exact term_ok _
theorem vMult_term (a b : Value F) : Term (vMult a b) := by
  cases a <;> cases b <;> simp only [vMult] <;> first | exact smmult_term _ _ | exact mmmult_term _ _ | exact mvmult_term _ _ | exact vvmult_term _ _ | exact term_err _ | exact term_ok _
theorem vDiv_term (a b : Value F) : Term (vDiv a b) := by
  cases a <;> cases b <;> simp only [vDiv] <;> first | exact smmult_term _ _ | exact vvdiv_term _ _ | exact term_err _ | exact term_ok _

theorem applyOp_term (op : SimpleOp) (a b : Value F) : Term (applyOp op a b) := by
  have hm : ∀ {x : Out String (Value F)}, Term x → Term (liftMath x) := fun h => h.mapErr _
  have one : ∀ {x : Out String (Value F)}, Term x → Term (do let v ← liftMath x; Out.ok [v] : Out EvalError (List (Value F))) :=
    fun h => Term.bind (hm h) fun _ _ => term_ok _
  cases op <;> simp only [applyOp]
  case get => exact one (vGet_term _ _)
  case add => exact one (vAdd_term _ _)
  case sub => exact one (vSub_term _ _)
  case addSub => exact Term.bind (hm (vAdd_term _ _)) fun _ _ => Term.bind (hm (vSub_term _ _)) fun _ _ => term_ok _
  case mult => exact one (vMult_term _ _)
  case hiddenMult => exact one (vMult_term _ _)
  case div => exact one (vDiv_term _ _)
  case cross => refine one ?_; cases a <;> cases b <;> simp only [vCross] <;> first | exact vcross_term _ _ | exact term_err _
  case pow => refine one ?_; cases a <;> cases b <;> simp only [vPow] <;> first | exact mspow_term _ _ | exact term_err _ | exact term_ok _
  case root => refine one ?_; cases a <;> cases b <;> simp only [vRoot] <;> first | exact term_err _ | exact term_ok _
  case neg => refine one ?_; cases b <;> exact term_ok _
  case sin => refine one ?_; cases a <;> first | exact term_ok _ | exact term_err _
  case cos => refine one ?_; cases a <;> first | exact term_ok _ | exact term_err _
  case tan => refine one ?_; cases a <;> first | exact term_ok _ | exact term_err _
  case arcsin => refine one ?_; cases a <;> first | exact term_ok _ | exact term_err _
  case arccos => refine one ?_; cases a <;> first | exact term_ok _ | exact term_err _
  case arctan => refine one ?_; cases a <;> first | exact term_ok _ | exact term_err _
  case sqrt => refine one ?_; cases a <;> first | exact term_ok _ | exact term_err _
  case ln => refine one ?_; cases a <;> first | exact term_ok _ | exact term_err _
  case abs => refine one ?_; unfold vAbs; term_tac
  case det => refine one ?_; cases a <;> first | exact detM_term _ | exact term_err _
  case inv => refine one ?_; cases a <;> first | exact invM_term _ | exact term_err _
  case parenths => exact term_ok _

theorem applyAll_term (op : SimpleOp) (l r : List (Value F)) : Term (applyAll op l r) := by
  unfold applyAll
  refine Term.bind (Term.mapM _ fun _ _ => Term.bind (Term.mapM _ fun _ _ => applyOp_term _ _ _) fun _ _ => term_ok _)
    fun _ _ => term_ok _

theorem allScalars_term (e : EvalError) (vs : List (Value F)) : Term (allScalars e vs) := by
  unfold allScalars; term_tac

theorem accumulate_term (s e : List (Value F)) : Term (accumulate s e) := by
  induction e generalizing s with
  | nil => cases s <;> exact term_ok _
  | cons v e ih =>
    cases s with
    | nil => exact Term.bind (ih _) fun _ _ => term_ok _
    | cons w s => exact Term.bind ((vAdd_term _ _).mapErr _) fun _ _ => Term.bind (ih _) fun _ _ => term_ok _

theorem sortByKey_term {ε : Type} (k : F → F) (l : List (Value F)) : Term (sortByKey k l : Out ε (List (Value F))) := by
  unfold sortByKey
  refine Term.bind (Term.mapM _ fun v _ => Term.bind ?_ fun _ _ => term_ok _) fun _ _ => Term.ite term_panic (term_ok _)
  cases v <;> simp only [sortKey] <;> first | exact idx_term _ _ | exact term_panic | exact term_ok _

theorem cleanResults_term {ε : Type} (cfg : Cfg) (l : List (Value F)) : Term (cleanResults cfg l : Out ε (List (Value F))) := by
  unfold cleanResults
  split
  · exact term_ok _
  · split
    · exact term_ok _
    · exact Term.ite (Term.bind (sortByKey_term _ _) fun _ _ => sortByKey_term _ _) (term_ok _)

theorem splitExprs_term {ε α : Type} (js : List Nat) (r : Nat) (s c : List α) :
    Term (splitExprs js r s c : Out ε (List α × List α)) := by
  induction js generalizing r s c with
  | nil => exact term_ok _
  | cons j js ih => exact Term.ite term_panic (Term.bind (idx_term _ _) fun _ _ => ih _ _ _)

theorem firstScalar_term {ε : Type} (vs : List (Value F)) : Term (firstScalar vs : Out ε F) := by
  unfold firstScalar; term_tac

end
end MUL
