import Verif.Spec.Eval
import Verif.Spec.Parser
import Verif.Proofs.EvalSafe
import Verif.Props.ParserBasics
import Verif.Num.Rat
/-!
# C26, C27: evaluation does not panic and yields well-formed values (no equations)
-/

namespace MUL
open Out Spec

section
variable {F : Type} [FNum F]

/-- C26: evaluating an equation-free well-formed tree in a well-formed context never panics, whatever the
numbers are (NaN, infinities, overflow included). -/
theorem C26_no_panic (cfg : Cfg) (n : Nat) (b : AST F) (ctx : Context F) (hb : EqFree b) (hctx : WFCtx ctx) :
    eval cfg n b ctx ≠ .panic :=
  (evalRec_safe cfg n hb hctx []).ne_panic

/-- C27: the values are well formed. -/
theorem C27_wellformed (cfg : Cfg) (n : Nat) (b : AST F) (ctx : Context F) (hb : EqFree b) (hctx : WFCtx ctx)
    {vs : List (Value F)} (h : eval cfg n b ctx = .ok vs) : ∀ v ∈ vs, WFValue v :=
  (evalRec_safe cfg n hb hctx []).of_ok h

omit [FNum F] in
/-- A well-formed tree in which no equation occurs is equation-free in the sense of C26. -/
theorem eqFree_of_wf {V : Str → Prop} {b : AST F} (h : WFTree V b) (hne : ¬ HasEq b) : EqFree b := by
  induction h with
  | scalar s => exact .scalar s
  | vector v hv _ ih => exact .vector v hv fun a ha => ih a ha fun he => hne (.vector v a ha he)
  | matrix m n hm hn hr _ ih =>
    exact .matrix m n hm hn hr fun l hl a ha => ih l hl a ha fun he => hne (.matrix m l a hl ha he)
  | list l _ _ ih => exact .list l fun a ha => ih a ha fun he => hne (.list l a ha he)
  | «variable» n _ => exact .variable n
  | function n args _ _ _ ih => exact .function n args fun a ha => ih a ha fun he => hne (.arg n args a ha he)
  | simple op l r _ _ hl hr =>
    exact .simple op l r (hl fun he => hne (.left op l r he)) (hr fun he => hne (.right op l r he))
  | integral e x lo hi _ _ _ he hl hh =>
    exact .integral e x lo hi (he fun h => hne (.integrand e x lo hi h)) (hl fun h => hne (.lower e x lo hi h))
      (hh fun h => hne (.upper e x lo hi h))
  | derivative e x a _ _ he ha =>
    exact .derivative e x a (he fun h => hne (.body e x a h)) (ha fun h => hne (.at_ e x a h))
  | equation es vs _ _ _ _ => exact absurd (.here es vs) hne

/-- C26, C27 for texts: if the parser accepts a text and the tree contains no equation, `quick_eval` neither
panics nor returns a malformed value. -/
theorem C26_text [UTable] (cfg : Cfg) (n : Nat) (s : Str) (b : AST F) (ctx : Context F) (h : parse cfg s = .ok b)
    (hne : ¬ HasEq b) (hctx : WFCtx ctx) :
    quickEval cfg n s ctx ≠ .panic ∧ ∀ vs, quickEval cfg n s ctx = .ok vs → ∀ v ∈ vs, WFValue v := by
  have hb := eqFree_of_wf (C11_wellformed cfg s b h) hne
  have hq : quickEval cfg n s ctx = (eval cfg n b ctx).mapErr .evalError := by
    unfold quickEval
    rw [h]
    rfl
  rw [hq]
  refine ⟨fun hp => C26_no_panic cfg n b ctx hb hctx ?_, fun vs hvs => ?_⟩
  · revert hp
    cases eval cfg n b ctx <;> simp [Out.mapErr]
  · exact C27_wellformed cfg n b ctx hb hctx (mapErr_eq_ok.1 hvs)

/-- The hypotheses are met by the determinant of a matrix that contains a call, with a function and a variable. -/
example (a : F) : EqFree (.simple .det (.matrix [[.function ['f'] [.variable ['x']], .scalar a], [.scalar a, .variable ['x']]])
      (.scalar a)) ∧
    WFCtx (F := F) ⟨[⟨['x'], [.scalar a, .vector [a, a]]⟩], [⟨['f'], .simple .mult (.variable ['t']) (.variable ['t']), [['t']]⟩]⟩ := by
  refine ⟨.simple _ _ _ (.matrix _ 2 (by simp) (by omega) (by simp) ?_) (.scalar _), ?_, ?_⟩
  · intro l hl b hb
    simp only [List.mem_cons, List.not_mem_nil, or_false] at hl
    rcases hl with rfl | rfl <;> simp only [List.mem_cons, List.not_mem_nil, or_false] at hb <;> rcases hb with rfl | rfl
    · exact .function _ _ (by simpa using .variable _)
    · exact .scalar _
    · exact .scalar _
    · exact .variable _
  · intro v hv x hx
    simp only [List.mem_cons, List.not_mem_nil, or_false] at hv
    subst hv
    simp only [List.mem_cons, List.not_mem_nil, or_false] at hx
    rcases hx with rfl | rfl
    · trivial
    · simp [WFValue]
  · intro f hf
    simp only [List.mem_cons, List.not_mem_nil, or_false] at hf
    subst hf
    exact .simple _ _ _ (.variable _) (.variable _)

end

/-- C26: with equations evaluation can panic: `eq(x=1, [1,2]=[3,4], x)` (the second equation is vector valued). -/
theorem C26_equation_panics : letI := UTable.ascii
    quickEval .default 10 "eq(x=1,[1,2]=[3,4],x)".toList (Context.empty : Context Q) = .panic := by decide +kernel

end MUL
