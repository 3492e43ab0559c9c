import Verif.Proofs.ReplaceResults
import Verif.Props.Replace
/-!
# C107: expressions with the same results may replace each other
-/

set_option linter.unusedSectionVars false

namespace MUL
open Out Spec

section
variable {F : Type} [FNum F] {X : Str → Prop} {g : Str → Option (List (Value F))} {B : AST F → AST F → Prop} {cfg : Cfg}

theorem eval_fails {n : Nat} {t : AST F} {c : Context F} (h : ∀ vs, eval cfg n t c ≠ .ok vs) : Fails (eval cfg n t c) := by
  cases ht : eval cfg n t c with
  | ok vs => exact absurd ht (h vs)
  | err e =>
    have hj := C105_justified cfg n t c e ht
    refine ⟨?_, ?_, ?_⟩ <;> rintro rfl <;> exact hj
  | panic => trivial
  | timeout => trivial

/-- **C107.** Let `B` relate trees such that whenever the first one has results, in a context in which the names in `X` have the meaning `g`, the
second one has the same results, within `k` more steps. If parts of a tree are replaced according to `B`, anywhere except below binders of names
in `X`, then the results of the tree, if it has any, stay the same. Nothing is said about how the parts fail. -/
theorem C107_replace (k : Nat)
    (h : ∀ a a', B a a' → ∀ c, Fixes X g c → ∀ n vs, eval cfg n a c = .ok vs → eval cfg (n + k) a' c = .ok vs)
    {b b' : AST F} (hb : Replaced B X b b') {c : Context F} (hc : Fixes X g c) (n : Nat) (vs : List (Value F)) (hv : eval cfg n b c = .ok vs) :
    eval cfg (n + k) b' c = .ok vs := by
  have hB : ∀ n a a' c, B a a' → Fixes X g c → Lf (evalRec cfg n a c []) (evalRec cfg (n + k) a' c []) := by
    intro n a a' c hab hc
    by_cases hok : ∃ vs, eval cfg n a c = .ok vs
    · obtain ⟨vs, hok⟩ := hok
      exact Or.inr (hok.trans (h a a' hab c hc n vs hok).symm)
    · exact Or.inl (eval_fails fun vs hvs => hok ⟨vs, hvs⟩)
  rcases lf_evalRec cfg k hB n b b' c hb hc with hf | he
  · rw [show evalRec cfg n b c [] = .ok vs from hv] at hf
    exact absurd hf id
  · exact he.symm.trans hv

/-- **C107**, both directions: parts that have the same results, or both none, may replace each other. -/
theorem C107_same (k : Nat)
    (h1 : ∀ a a', B a a' → ∀ c, Fixes X g c → ∀ n vs, eval cfg n a c = .ok vs → eval cfg (n + k) a' c = .ok vs)
    (h2 : ∀ a a', B a a' → ∀ c, Fixes X g c → ∀ n vs, eval cfg n a' c = .ok vs → eval cfg (n + k) a c = .ok vs)
    {b b' : AST F} (hb : Replaced B X b b') {c : Context F} (hc : Fixes X g c) (vs : List (Value F)) :
    Finishes (fun n => eval cfg n b c) (.ok vs) ↔ Finishes (fun n => eval cfg n b' c) (.ok vs) :=
  ⟨fun ⟨hr, n, hn⟩ => ⟨hr, n + k, C107_replace k h1 hb hc n vs hn⟩,
    fun ⟨hr, n, hn⟩ => ⟨hr, n + k, C107_replace (B := fun x y => B y x) k (fun a a' h => h2 a' a h) (replaced_symm hb) hc n vs hn⟩⟩

/-- Two trees with the same results for every context and budget. -/
def SameResults (cfg : Cfg) (a a' : AST F) : Prop := ∀ c n vs, eval cfg n a c = .ok vs ↔ eval cfg n a' c = .ok vs

/-- **C107.** Within an expression, parts can be exchanged for parts with the same results. -/
theorem C107_results {b b' : AST F} (hb : Replaced (SameResults cfg) (fun _ => False) b b') : SameResults cfg b b' := fun _ n vs =>
  ⟨fun h => C107_replace 0 (X := fun _ => False) (g := fun _ => none) (fun _ _ h c _ n vs => (h c n vs).1) hb nofun n vs h,
    fun h => C107_replace 0 (X := fun _ => False) (g := fun _ => none) (B := fun x y => SameResults cfg y x) (fun _ _ h c _ n vs => (h c n vs).2)
      (replaced_symm hb) nofun n vs h⟩

end
end MUL
