import Verif.Spec.Equality
import Verif.Props.Literals
/-!
# The numbers in a parsed expression
-/

namespace MUL
open Out Spec

set_option linter.unusedSectionVars false

section
variable [UTable] {F : Type} [FArith F]

/-- Numbers that can be written. -/
def Lit (a : F) : Prop := ∃ (m : Nat) (e : Int), a = FArith.ofDec m e

def Num0 (a : F) : Prop := Lit a ∨ a = FArith.ofInt 0

local notation "G" => Written (F := F) Num0

theorem idx_any {ε α : Type} (l : List α) (i : Nat) : Post False (fun a => a ∈ l) (idx l i : Out ε α) := by
  unfold idx
  cases h : l[i]? with
  | none => exact fun h => h
  | some a => exact List.mem_of_getElem? h

theorem slice_any {ε α : Type} (l : List α) (i j : Nat) : Post False (fun _ => True) (slice l i j : Out ε (List α)) := by
  unfold slice
  split
  · trivial
  · exact fun h => h

theorem nums_all {rec : Str → Out ParserError (AST F)} (h : ∀ t, Post False G (rec t)) (l : List Str) :
    Post False (fun r => ∀ b ∈ r, G b) (parseAll rec l) :=
  (Post.mapM l fun a _ => h a).mono fun _ h => h.2

theorem nums_function {rec : Str → Out ParserError (AST F)} (h : ∀ t, Post False G (rec t)) {cs : Str} :
    ∀ res, parseFunction rec cs = some res → Post False G res := by
  intro res hres
  unfold parseFunction at hres
  split at hres
  · cases hres
  · cases hres
    split
    · refine Post.bind (slice_any _ _ _) fun inner _ => ?_
      simp only
      split
      · trivial
      · refine Post.bind (idx_any _ _) fun a0 _ => ?_
        refine Post.bind (h a0) fun l hl => ?_
        refine Post.bind (idx_any _ _) fun a1 _ => ?_
        refine Post.bind (h a1) fun r hr => ?_
        exact .simple _ _ _ hl hr
    · refine Post.bind (slice_any _ _ _) fun inner _ => ?_
      refine Post.bind (h inner) fun l hl => ?_
      exact .simple _ _ _ hl (.scalar _ (Or.inr rfl))

theorem nums_entry {rec : Str → Out ParserError (AST F)} (h : ∀ t, Post False G (rec t)) (s : Str) :
    Post False (fun e => ∀ p, e = Sum.inl p → G p.1 ∧ G p.2) (parseEqEntry rec s) := by
  unfold parseEqEntry
  split
  · intro p hp; cases hp
  · simp only
    split
    · refine Post.bind (h _) fun l hl => ?_
      refine Post.bind (h _) fun r hr => ?_
      intro p hp; cases hp; exact ⟨hl, hr⟩
    · refine Post.bind (h _) fun l hl => ?_
      refine Post.bind (h _) fun r hr => ?_
      intro p hp; cases hp; exact ⟨hl, hr⟩

theorem nums_advanced {rec : Str → Out ParserError (AST F)} (h : ∀ t, Post False G (rec t)) {cs : Str} :
    ∀ res, parseAdvanced rec cs = some res → Post False G res := by
  intro res hres
  unfold parseAdvanced at hres
  split at hres
  · cases hres
    refine Post.bind (slice_any _ _ _) fun inner _ => ?_
    simp only
    split
    · trivial
    · refine Post.bind (idx_any _ _) fun a0 _ => ?_
      refine Post.bind (h a0) fun f hf => ?_
      refine Post.bind (idx_any _ _) fun a2 _ => ?_
      refine Post.bind (h a2) fun lb hlb => ?_
      refine Post.bind (idx_any _ _) fun a3 _ => ?_
      refine Post.bind (h a3) fun ub hub => ?_
      refine Post.bind (idx_any _ _) fun a1 _ => ?_
      exact .integral _ _ _ _ hf hlb hub
  split at hres
  · cases hres
    refine Post.bind (slice_any _ _ _) fun inner _ => ?_
    simp only
    split
    · trivial
    · refine Post.bind (idx_any _ _) fun a0 _ => ?_
      refine Post.bind (h a0) fun f hf => ?_
      refine Post.bind (idx_any _ _) fun a2 _ => ?_
      refine Post.bind (h a2) fun lb hlb => ?_
      refine Post.bind (idx_any _ _) fun a1 _ => ?_
      exact .derivative _ _ _ hf hlb
  split at hres
  · cases hres
    refine Post.bind (slice_any _ _ _) fun inner _ => ?_
    refine Post.bind (Post.mapM _ fun a _ => nums_entry h a) fun entries hen => ?_
    have key : ∀ e ∈ entries.filterMap Sum.getLeft?, G e.1 ∧ G e.2 := ?_
    · exact .equation _ _ (fun e he => (key e he).1) (fun e he => (key e he).2)
    intro e he
    simp only [List.mem_filterMap] at he
    obtain ⟨x, hx, hxe⟩ := he
    have := hen.2 x hx
    cases x with
    | inl p =>
      have hp : p = e := by simpa using hxe
      subst hp
      exact this _ rfl
    | inr p => simp at hxe
  · cases hres

theorem nums_row (a : AST F) (h : G a) : Post False (fun r => ∀ x ∈ r, G x) (asRow a) := by
  cases h with
  | vector v hv => exact hv
  | _ => trivial

theorem nums_columns (m : List (List (AST F))) (h : ∀ r ∈ m, ∀ x ∈ r, G x) :
    Post False (fun c => ∀ r ∈ c, ∀ x ∈ r, G x) (colMatrix m) := by
  unfold colMatrix
  refine Post.bind (idx_any _ _) fun m0 hm0 => ?_
  refine Post.mono (Post.mapM (P := fun r => ∀ x ∈ r, G x) _ fun i _ => ?_) fun _ h => h.2
  refine Post.mono (Post.mapM (P := G) _ fun j _ => ?_) fun _ h => h.2
  refine Post.bind (idx_any _ _) fun r hr => ?_
  exact Post.mono (idx_any _ _) fun x hx => h r hr x hx

theorem nums_value {cfg : Cfg} {rec : Str → Out ParserError (AST F)} (h : ∀ t, Post False G (rec t)) (cs : Str) :
    Post False (fun t => (∃ a, t = .scalar a) ∨ G t) (parseValue cfg rec cs) := by
  unfold parseValue
  split
  · split
    · exact Or.inl ⟨_, rfl⟩
    · trivial
  · split
    · refine Post.bind (idx_any _ _) fun c0 _ => ?_
      split
      · trivial
      · refine Post.bind (idx_any _ _) fun cl hcl => ?_
        split
        · trivial
        · refine Post.bind (slice_any _ _ _) fun inner hin => ?_
          refine Post.bind (idx_any _ _) fun a0 ha0 => ?_
          split
          · trivial
          · refine Post.bind (nums_all h _) fun outputV hV => ?_
            simp only
            split
            · exact Or.inr (.vector _ hV)
            · split
              · refine Post.bind (Post.mapM (P := fun r => ∀ x ∈ r, G x) outputV fun a ha => nums_row a (hV a ha)) fun outputM hM => ?_
                refine Post.bind (idx_any _ _) fun m0 hm0 => ?_
                split
                · trivial
                · split
                  · exact Or.inr (.matrix _ hM.2)
                  · refine Post.bind (nums_columns outputM hM.2) fun cm hcm => ?_
                    exact Or.inr (.matrix _ hcm)
              · trivial
    · trivial

theorem nums_atom {cfg : Cfg} {rec : Str → Out ParserError (AST F)} (h : ∀ t, Post False G (rec t)) (cs : Str) :
    Post False (fun t => (∃ a, t = .scalar a) ∨ G t) (parseAtom cfg rec cs) := by
  unfold parseAtom
  refine Post.bind (idx_any _ _) fun c0 hc0 => ?_
  refine Post.bind (idx_any _ _) fun cl hcl => ?_
  split
  · refine Post.bind (slice_any _ _ _) fun inner hin => ?_
    refine Post.bind (nums_all h _) fun args hargs => ?_
    refine Post.bind (P := fun _ => True) ?_ fun v _ => ?_
    · cases (isValidVarName _ : Out ParserError Bool) <;> first | trivial | exact fun h => h
    · split
      · trivial
      · exact Or.inr (.function _ _ hargs)
  · split
    · refine Post.bind (P := fun _ => True) ?_ fun v _ => ?_
      · cases (isValidVarName _ : Out ParserError Bool) <;> first | trivial | exact fun h => h
      · split
        · trivial
        · exact Or.inr (.variable _)
    · split
      · refine Post.bind (slice_any _ _ _) fun inner hin => ?_
        refine Post.bind (nums_all h _) fun l hl => ?_
        exact Or.inr (.list _ hl)
      · exact nums_value h cs

theorem nums_step {cfg : Cfg} {rec : Str → Out ParserError (AST F)} (h : ∀ t, Post False G (rec t)) (cs : Str) :
    Post False (fun t => (∃ a, t = .scalar a) ∨ G t) (parseStep cfg rec cs) := by
  unfold parseStep
  split
  · trivial
  · simp only
    split
    · trivial
    split
    · trivial
    refine Post.bind (idx_any _ _) fun c0 hc0 => ?_
    refine Post.bind (idx_any _ _) fun cl hcl => ?_
    split
    · refine Post.bind (slice_any _ _ _) fun inner _ => ?_
      refine Post.bind (h inner) fun l hl => ?_
      exact Or.inr (.simple _ _ _ hl (.scalar _ (Or.inr rfl)))
    · split
      · refine Post.bind (slice_any _ _ _) fun leftS hL => ?_
        refine Post.bind (slice_any _ _ _) fun rightS hR => ?_
        refine Post.bind (h rightS) fun r hr => ?_
        split
        · exact Or.inr (.simple _ _ _ (.scalar _ (Or.inr rfl)) hr)
        · refine Post.bind (h leftS) fun l hl => ?_
          exact Or.inr (.simple _ _ _ hl hr)
      · split
        · rename_i res hres
          exact (nums_function h res hres).mono fun _ => Or.inr
        · split
          · rename_i res hres
            exact (nums_advanced h res hres).mono fun _ => Or.inr
          · exact nums_atom h cs

theorem nums_inner (cfg : Cfg) (s : Str) : Post False G (parseInner cfg s : Out ParserError (AST F)) := by
  induction hN : s.length using Nat.strongRecOn generalizing s with
  | _ N ih =>
    have hstep : Post False (fun t => (∃ a, t = .scalar a) ∨ G t) (parseInner cfg s : Out ParserError (AST F)) := by
      rw [parseInner_eq]
      classical
      rw [parseStep_congr (r2 := fun t => if Shorter t s then parseInner cfg t else .err .emptyExpr) (fun t ht => by simp [ht])]
      refine nums_step (fun t => ?_) s
      split
      · rename_i ht
        exact ih t.length (by have := ht.1; omega) t rfl
      · trivial
    cases hp : (parseInner cfg s : Out ParserError (AST F)) with
    | ok t =>
      rw [hp] at hstep
      rcases hstep with ⟨a, rfl⟩ | hG
      · obtain ⟨h1, h2, h3⟩ := scalar_inv hp
        obtain ⟨m, e, _, rfl⟩ := literal_of_scalar h1 h2 h3
        exact .scalar _ (Or.inl ⟨m, e, rfl⟩)
      · exact hG
    | err e => trivial
    | timeout => trivial
    | panic => exact fun h => h

/-- The numbers in a parsed expression are written ones, or zeros that fill a missing operand. -/
theorem parsed_numbers (cfg : Cfg) (s : Str) (t : AST F) (h : parse cfg s = .ok t) :
    Written (fun a : F => (∃ (m : Nat) (e : Int), a = FArith.ofDec m e) ∨ a = FArith.ofInt 0) t :=
  (nums_inner cfg (stripBlanks s)).of_ok h

end
end MUL
