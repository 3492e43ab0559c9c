import Verif.Proofs.RenameText
import Verif.Props.Rename
import Verif.Props.SidesAnywhere
/-!
# C78 from texts
-/

namespace MUL
open Out FArith FElem Spec

section
variable {F : Type} [FNum F] [UTable] {σ τ : Str → Str} {cfg : Cfg}

omit [FNum F] [UTable] in
/-- What `quick_eval` reports, with the new names. -/
def renameQuickErr (σ τ : Str → Str) : QuickEvalError → QuickEvalError
  | .evalError e => .evalError (renameErr σ τ e)
  | e => e

/-- **C78**, from the text: exchanging the names in a text and in the context, so that the new text can be written, changes the outcome only in the
names an error mentions. If the text has equations, new names must be as long as the old ones: the library compares the lengths of the sides. -/
theorem C78_text (hσ : Function.Injective σ) (hτ : Function.Injective τ) (h0 : τ [] = []) (e : Ex) (he : e.WF) (he' : (renameEx σ τ e).WF)
    (hl : (∀ n, (σ n).length = n.length ∧ (τ n).length = n.length) ∨ NoEquation e) (n : Nat) (c : Context F) :
    quickEval cfg n (renameEx σ τ e).text (renameCtx σ τ c) = (quickEval cfg n e.text c).mapErr (renameQuickErr σ τ) := by
  have hl' : (∀ e : Ex, (renameEx σ τ e).text.length = e.text.length) ∨ NoEquation e :=
    hl.imp_left fun h => text_len (fun n => (h n).1) (fun n => (h n).2)
  unfold quickEval
  rw [C09_parse_text cfg _ he', C09_parse_text cfg _ he, tree_rename cfg e hl']
  show (eval cfg n (rename σ τ (e.tree cfg)) (renameCtx σ τ c)).mapErr _ = ((eval cfg n (e.tree cfg) c).mapErr _).mapErr _
  rw [C78_rename hσ hτ h0]
  cases eval cfg n (e.tree cfg : AST F) c <;> rfl

/-- **C78**, from the text, for expressions whose equations have one unknown each: new names may have any length; the results stay
the same (by C106). -/
theorem C78_text_results [Mirror F] (hσ : Function.Injective σ) (hτ : Function.Injective τ) (h0 : τ [] = []) (hprec : cfg.prec ≤ 22) (e : Ex)
    (he : e.WF) (he' : (renameEx σ τ e).WF) (h1 : OneUnknown e) (n : Nat) (c : Context F) (vs : List (Value F)) :
    quickEval cfg n (renameEx σ τ e).text (renameCtx σ τ c) = .ok vs ↔ quickEval cfg n e.text c = .ok vs := by
  rw [quickEval_results _ he', quickEval_results _ he, ← sr_rename hprec e h1 (renameCtx σ τ c) n vs, C78_rename hσ hτ h0]
  cases eval cfg n (e.tree cfg : AST F) c <;> simp [Out.mapErr]

end

/-! ## Witnesses -/

/-- `2*x+1` and `2*rate+1`. -/
theorem wRenameText [UTable] (n : Nat) (v : Value Q) :
    quickEval Cfg.default n "2*rate+1".toList (⟨[⟨"rate".toList, [v]⟩], []⟩ : Context Q) =
      (quickEval Cfg.default n "2*x+1".toList (⟨[⟨"x".toList, [v]⟩], []⟩ : Context Q)).mapErr (renameQuickErr (swapName ['x'] "rate".toList) id) := by
  have h2 : (Ex.num ['2'] none).WF := wf_num (s := "2") (by decide)
  have h1 : (Ex.num ['1'] none).WF := wf_num (s := "1") (by decide)
  exact C78_text (cfg := Cfg.default) (swapName_injective ['x'] "rate".toList) (τ := id) (fun _ _ h => h) rfl
    (.bin .add (.bin .mult (.num ['2'] none) (.var ['x'])) (.num ['1'] none))
    ⟨⟨h2, wf_name (n := "x") (by decide), by decide, by decide, nofun⟩, h1, by decide, by decide, nofun⟩
    ⟨⟨h2, wf_name (n := "rate") (by decide), by decide, by decide, nofun⟩, h1, by decide, by decide, nofun⟩
    (Or.inr ⟨⟨trivial, trivial⟩, trivial⟩) n ⟨[⟨"x".toList, [v]⟩], []⟩

/-- Both are 7 at 3. -/
example [UTable] : quickEval Cfg.default 5 "2*rate+1".toList (⟨[⟨"rate".toList, [.scalar (.fin 3)]⟩], []⟩ : Context Q) = .ok [.scalar (.fin 7)] := by
  have ht : "2*x+1".toList = (Ex.bin .add (.bin .mult (.num ['2'] none) (.var ['x'])) (.num ['1'] none)).text := by decide
  rw [wRenameText, ht]
  unfold quickEval
  rw [C09_parse_text Cfg.default (Ex.bin .add (.bin .mult (.num ['2'] none) (.var ['x'])) (.num ['1'] none))
    ⟨⟨wf_num (s := "2") (by decide), wf_name (n := "x") (by decide), by decide, by decide, nofun⟩,
      wf_num (s := "1") (by decide), by decide, by decide, nofun⟩]
  clear ht
  exact (by decide +kernel : mapErr (renameQuickErr (swapName ['x'] "rate".toList) id) (mapErr QuickEvalError.evalError
    (eval Cfg.default 5 ((Ex.bin .add (.bin .mult (.num ['2'] none) (.var ['x'])) (.num ['1'] none)).tree Cfg.default)
      (⟨[⟨"x".toList, [.scalar (.fin 3)]⟩], []⟩ : Context Q))) = ok [Value.scalar (Ext.fin 7)])

/-- `55=x` and `55=rate`: the new name makes the right side the longer one, so the library exchanges the sides; the results stay. -/
example [UTable] (n : Nat) (c : Context Double) (vs : List (Value Double)) :
    quickEval Cfg.default n "eq(55=rate,rate)".toList (renameCtx (swapName ['x'] "rate".toList) id c) = .ok vs ↔
      quickEval Cfg.default n "eq(55=x,x)".toList c = .ok vs := by
  have h5 : (Ex.num ['5', '5'] none).WF := wf_num (s := "55") (by decide)
  have hv : ∀ x : Str, NameShape x → ∀ v ∈ [x], NameShape v := by
    intro x hx v hv
    simp only [List.mem_singleton] at hv
    subst hv
    exact hx
  have hwf : (Ex.eqs [.num ['5', '5'] none] [.var ['x']] [['x']]).WF :=
    ⟨rfl, ⟨h5, trivial⟩, ⟨wf_name (n := "x") (by decide), trivial⟩, Or.inl (by simp), by decide, hv _ (nameShape_letters (by decide) (by decide))⟩
  have hwf' : (Ex.eqs [.num ['5', '5'] none] [.var "rate".toList] ["rate".toList]).WF :=
    ⟨rfl, ⟨h5, trivial⟩, ⟨wf_name (n := "rate") (by decide), trivial⟩, Or.inl (by simp), by decide, hv _ (nameShape_letters (by decide) (by decide))⟩
  exact C78_text_results (cfg := Cfg.default) (σ := swapName ['x'] "rate".toList) (τ := id) (swapName_injective ['x'] "rate".toList)
    (fun _ _ h => h) rfl (by decide) (.eqs [.num ['5', '5'] none] [.var ['x']] [['x']]) hwf hwf'
    ⟨rfl, ⟨trivial, trivial⟩, ⟨trivial, trivial⟩⟩ n c vs

end MUL
