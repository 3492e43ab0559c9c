import Verif.Spec.RewriteText
import Verif.Props.Rewrite
import Verif.Props.Twice
/-!
# C109: rewriting texts
-/

set_option linter.unusedSectionVars false

namespace MUL
open Out FArith FElem Spec

section
variable {F : Type} [FNum F] {cfg : Cfg}

/-- The same results, within `k` more steps. -/
def SameIn (cfg : Cfg) (k : Nat) (a a' : AST F) : Prop :=
  ∀ c n vs, (eval cfg n a c = .ok vs → eval cfg (n + k) a' c = .ok vs) ∧ (eval cfg n a' c = .ok vs → eval cfg (n + k) a c = .ok vs)

theorem SameIn.refl (k : Nat) (a : AST F) : SameIn cfg k a a := fun _ _ _ => ⟨eval_more (by omega), eval_more (by omega)⟩
theorem SameIn.symm {k : Nat} {a a' : AST F} (h : SameIn cfg k a a') : SameIn cfg k a' a := fun c n vs => ⟨(h c n vs).2, (h c n vs).1⟩
theorem SameIn.trans {k m : Nat} {a b d : AST F} (h : SameIn cfg k a b) (h' : SameIn cfg m b d) : SameIn cfg (k + m) a d := fun c n vs =>
  ⟨fun hv => by have := (h' c (n + k) vs).1 ((h c n vs).1 hv); rwa [Nat.add_assoc] at this,
    fun hv => by have := (h c (n + m) vs).2 ((h' c n vs).2 hv); rwa [Nat.add_assoc, Nat.add_comm m k] at this⟩
theorem SameResults.sameIn {a a' : AST F} (h : SameResults cfg a a') : SameIn cfg 0 a a' := fun c n vs => ⟨(h c n vs).1, (h c n vs).2⟩

/-- Parts with the same results within `k` steps. -/
theorem sameIn_parts {k : Nat} {b b' : AST F} (hb : Replaced (SameIn cfg k) (fun _ => False) b b') : SameIn cfg k b b' := fun _ n vs =>
  ⟨C107_replace k (X := fun _ => False) (g := fun _ => none) (fun _ _ h c _ n vs => (h c n vs).1) hb nofun n vs,
    C107_replace k (X := fun _ => False) (g := fun _ => none) (B := fun x y => SameIn cfg k y x) (fun _ _ h c _ n vs => (h c n vs).2)
      (replaced_symm hb) nofun n vs⟩

/-- A list with one element changed. -/
theorem forall₂_hole {α : Type} {R : α → α → Prop} (hr : ∀ a, R a a) (pre post : List α) {a a' : α} (h : R a a') :
    List.Forall₂ R (pre ++ a :: post) (pre ++ a' :: post) := by
  induction pre with
  | nil => exact .cons h (List.forall₂_same.2 fun a _ => hr a)
  | cons b pre ih => exact .cons (hr b) ih

theorem treeAll_hole (pre : List Ex) (e : Ex) (post : List Ex) : (treeAll cfg (pre ++ e :: post) : List (AST F)) = treeAll cfg pre ++ e.tree cfg :: treeAll cfg post := by
  induction pre with
  | nil => rfl
  | cons p pre ih => simp [treeAll, ih]

theorem treeRows_hole (pre : List (List Ex)) (r : List Ex) (post : List (List Ex)) :
    (treeRows cfg (pre ++ r :: post) : List (List (AST F))) = treeRows cfg pre ++ treeAll cfg r :: treeRows cfg post := by
  induction pre with
  | nil => rfl
  | cons p pre ih => simp [treeRows, ih]

theorem sameIn_hole {k : Nat} (pre post : List Ex) {e e' : Ex} (h : SameIn cfg k (e.tree cfg : AST F) (e'.tree cfg)) :
    List.Forall₂ (SameIn cfg k) (treeAll cfg (pre ++ e :: post) : List (AST F)) (treeAll cfg (pre ++ e' :: post)) := by
  rw [treeAll_hole, treeAll_hole]
  exact forall₂_hole (SameIn.refl k) _ _ h

theorem parts_of {k : Nat} {l l' : List (AST F)} (h : List.Forall₂ (SameIn cfg k) l l') : List.Forall₂ (Replaced (SameIn cfg k) fun _ => False) l l' :=
  h.imp fun _ _ h => .part _ _ h

theorem oneNumber_tree {e : Ex} (h : NumberEx e) : OneNumber (e.tree cfg : AST F) := by
  induction h with
  | num ip fp => exact .number _
  | paren e _ ih => exact .operation _ _ _ (by decide) ih (.number _)
  | neg e _ ih => exact .operation _ _ _ (by decide) (.number _) ih
  | fn n op e hop _ ih => exact .operation _ _ _ hop ih (.number _)
  | root a b _ _ iha ihb => exact .operation _ _ _ (by decide) iha ihb
  | bin op l r hop _ _ ihl ihr => exact .operation _ _ _ (by cases op <;> first | exact absurd rfl hop | decide) ihl ihr

/-- An expression of numbers means the same in every context. -/
theorem oneNumber_context {e : AST F} (h : OneNumber e) (n : Nat) (c c' : Context F) : eval cfg n e c = eval cfg n e c' := by
  induction h generalizing n with
  | number s => cases n <;> simp only [eval, evalRec]
  | operation op l r _ _ _ ihl ihr =>
    cases n with
    | zero => rfl
    | succ n => rw [eval_simple, eval_simple, ihl n, ihr n]

/-- Two written expressions with the same single value (in the empty context, with the budget `n`). -/
def SameNumber (F : Type) [FNum F] (cfg : Cfg) (c c' : Ex) : Prop :=
  ∃ n, ∃ v : Value F, eval cfg n (c.tree cfg) Context.empty = .ok [v] ∧ eval cfg n (c'.tree cfg) Context.empty = .ok [v]

theorem sameIn_number {n : Nat} {e e' : AST F} (h : OneNumber e) (h' : OneNumber e') {vs : List (Value F)} (hv : eval cfg n e Context.empty = .ok vs)
    (hv' : eval cfg n e' Context.empty = .ok vs) : SameIn cfg n e e' := by
  have key : ∀ {e e' : AST F}, OneNumber e → OneNumber e' → eval cfg n e Context.empty = .ok vs → eval cfg n e' Context.empty = .ok vs →
      ∀ c m ws, eval cfg m e c = .ok ws → eval cfg (m + n) e' c = .ok ws := by
    intro e e' h h' hv hv' c m ws hw
    rw [oneNumber_context h m c Context.empty] at hw
    have h1 := eval_more (show m ≤ m + n by omega) hw
    rw [eval_more (show n ≤ m + n by omega) hv] at h1
    cases h1
    rw [oneNumber_context h' _ c Context.empty]
    exact eval_more (by omega) hv'
  exact fun c m ws => ⟨key h h' hv hv' c m ws, key h' h hv' hv c m ws⟩

theorem sameIn_rule (hF : Commutes F) {a a' : AST F} (h : Rule a a') : SameIn cfg 3 a a' := fun c n vs => ⟨rule_forth hF h c n vs, rule_back hF h c n vs⟩

/-- **C109.** Expressions that can be rewritten into each other have the same results, within a fixed number of steps. -/
theorem C109_trees [Mirror F] (hF : Commutes F) (hp : cfg.prec ≤ 22) {e e' : Ex} (h : Rewritten (SameNumber F cfg) e e') :
    ∃ k, SameIn cfg k (e.tree cfg : AST F) (e'.tree cfg) := by
  induction h with
  | sum c e hc => exact ⟨3, sameIn_rule hF (.sum _ _ (oneNumber_tree hc))⟩
  | product c e hc => exact ⟨3, sameIn_rule hF (.product _ _ (oneNumber_tree hc))⟩
  | hidden l r => exact ⟨3, sameIn_rule hF (.hidden _ _)⟩
  | minus l r => exact ⟨3, sameIn_rule hF (.minus _ _)⟩
  | negative e => exact ⟨3, sameIn_rule hF (.negative _)⟩
  | parentheses e => exact ⟨3, sameIn_rule hF (.parentheses _)⟩
  | constant c c' hc hc' h =>
    obtain ⟨n, v, h1, h2⟩ := h
    exact ⟨n, sameIn_number (oneNumber_tree hc) (oneNumber_tree hc') h1 h2⟩
  | sides ls rs ls' rs' x hl hl' hs =>
    obtain ⟨eqs, eqs', e1, e2, e3⟩ := tree_sides (F := F) cfg hl hl' hs [x]
    rw [e1, e2]
    exact ⟨0, SameResults.sameIn fun c n vs => C106_sides hp x _ _ e3 c n vs⟩
  | twice l r x =>
    refine ⟨0, SameResults.sameIn fun c n vs => ?_⟩
    simp only [Ex.tree, textAll, treeAll, List.zip_cons_cons, List.zip_nil_right, List.zipWith_cons_cons, List.zipWith_nil_right]
    split <;> rw [C108_twice]
  | refl e => exact ⟨0, .refl _ _⟩
  | symm e e' _ ih => exact ih.imp fun _ h => h.symm
  | trans e e' e'' _ _ ih1 ih2 =>
    obtain ⟨k, h1⟩ := ih1
    obtain ⟨m, h2⟩ := ih2
    exact ⟨k + m, h1.trans h2⟩
  | neg e e' _ ih => exact ih.imp fun _ h => sameIn_parts (.simple _ _ _ _ _ (.same _) (.part _ _ h))
  | fn n op e e' _ ih => exact ih.imp fun _ h => sameIn_parts (.simple _ _ _ _ _ (.part _ _ h) (.same _))
  | root a a' b b' _ _ ih1 ih2 =>
    obtain ⟨k, h1⟩ := ih1
    obtain ⟨m, h2⟩ := ih2
    exact ⟨k + m, .trans (sameIn_parts (.simple _ _ _ _ _ (.part _ _ h1) (.same _))) (sameIn_parts (.simple _ _ _ _ _ (.same _) (.part _ _ h2)))⟩
  | bin op a a' b b' _ _ ih1 ih2 =>
    obtain ⟨k, h1⟩ := ih1
    obtain ⟨m, h2⟩ := ih2
    exact ⟨k + m, .trans (sameIn_parts (.simple _ _ _ _ _ (.part _ _ h1) (.same _))) (sameIn_parts (.simple _ _ _ _ _ (.same _) (.part _ _ h2)))⟩
  | integ e e' x lo lo' hi hi' _ _ _ ih1 ih2 ih3 =>
    obtain ⟨k, h1⟩ := ih1
    obtain ⟨m, h2⟩ := ih2
    obtain ⟨o, h3⟩ := ih3
    exact ⟨k + m + o, .trans (.trans (sameIn_parts (.integral _ _ _ _ _ _ _ id (.part _ _ h1) (.same _) (.same _)))
      (sameIn_parts (.bounds _ _ _ _ _ _ (.part _ _ h2) (.same _)))) (sameIn_parts (.bounds _ _ _ _ _ _ (.same _) (.part _ _ h3)))⟩
  | deriv e e' x a a' _ _ ih1 ih2 =>
    obtain ⟨k, h1⟩ := ih1
    obtain ⟨m, h2⟩ := ih2
    exact ⟨k + m, .trans (sameIn_parts (.derivative _ _ _ _ _ id (.part _ _ h1) (.same _))) (sameIn_parts (.point _ _ _ _ (.part _ _ h2)))⟩
  | call n pre e e' post _ ih => exact ih.imp fun _ h => sameIn_parts (.function _ _ _ (parts_of (sameIn_hole pre post h)))
  | vec pre e e' post _ ih => exact ih.imp fun _ h => sameIn_parts (.vector _ _ (parts_of (sameIn_hole pre post h)))
  | list pre e e' post _ ih => exact ih.imp fun _ h => sameIn_parts (.list _ _ (parts_of (sameIn_hole pre post h)))
  | mat above pre e e' post below _ ih =>
    obtain ⟨k, h⟩ := ih
    refine ⟨k, sameIn_parts (.matrix _ _ ?_)⟩
    have hm : List.Forall₂ (List.Forall₂ (SameIn cfg k)) (treeRows cfg (above ++ (pre ++ e :: post) :: below) : List (List (AST F)))
        (treeRows cfg (above ++ (pre ++ e' :: post) :: below)) := by
      rw [treeRows_hole, treeRows_hole]
      exact forall₂_hole (fun r => List.forall₂_same.2 fun a _ => SameIn.refl k a) _ _ (sameIn_hole pre post h)
    revert hm
    generalize (treeRows cfg (above ++ (pre ++ e :: post) :: below) : List (List (AST F))) = m
    generalize (treeRows cfg (above ++ (pre ++ e' :: post) :: below) : List (List (AST F))) = m'
    intro hm
    have hlen : (m.headD []).length = (m'.headD []).length := by
      cases hm with
      | nil => rfl
      | cons hr _ => exact hr.length_eq
    have : List.Forall₂ (List.Forall₂ (SameIn cfg k)) (if cfg.rowMajor then m else transpose (m.headD []).length m)
        (if cfg.rowMajor then m' else transpose (m'.headD []).length m') := by
      rw [← hlen]
      split
      · exact hm
      · exact sr_transpose hm _
    exact this.imp fun _ _ h => parts_of h
  | left pre e e' post rs x _ ih =>
    obtain ⟨k, h⟩ := ih
    have hs := sides_split (textAll (pre ++ e :: post)) (textAll rs) (sameIn_hole pre post h)
      (List.forall₂_same.2 fun a _ => SameIn.refl (cfg := cfg) k a : List.Forall₂ (SameIn cfg k) (treeAll cfg rs : List (AST F)) (treeAll cfg rs))
    have h1 : SameIn cfg k ((Ex.eqs (pre ++ e :: post) rs [x]).tree cfg : AST F) _ := sameIn_parts (.equation _ _ _ (fun _ _ => id) (parts_of hs.1) (parts_of hs.2))
    refine ⟨k + 0, h1.trans (SameResults.sameIn fun c n vs => C106_sides hp x _ _ (sides_order ?_ rfl _ _) c n vs)⟩
    rw [textAll_length, textAll_length]
    simp

/-- **C109**, from texts: texts of expressions that can be rewritten into each other have the same results. -/
theorem C109_text [UTable] [Mirror F] (hF : Commutes F) (hp : cfg.prec ≤ 22) {e e' : Ex} (he : e.WF) (he' : e'.WF) (h : Rewritten (SameNumber F cfg) e e')
    (c : Context F) (vs : List (Value F)) :
    Finishes (fun n => quickEval cfg n e.text c) (.ok vs) ↔ Finishes (fun n => quickEval cfg n e'.text c) (.ok vs) := by
  obtain ⟨k, h⟩ := C109_trees (F := F) hF hp h
  constructor
  · rintro ⟨-, n, hn⟩
    exact ⟨nofun, n + k, (quickEval_results e' he' _ c vs).2 ((h c n vs).1 ((quickEval_results e he n c vs).1 hn))⟩
  · rintro ⟨-, n, hn⟩
    exact ⟨nofun, n + k, (quickEval_results e he _ c vs).2 ((h c n vs).2 ((quickEval_results e' he' n c vs).1 hn))⟩

end
end MUL

/-! ## The laws hold in exact arithmetic and in binary64 -/

namespace MUL
open FArith

section
variable {K : Type} [Field K] [LinearOrder K] [FloorRing K] [IsStrictOrderedRing K]

theorem commutes_exact [FNum (Ext K)] (hI : (FNum.toFArith : FArith (Ext K)) = Ext.instFArith) : Commutes (Ext K) where
  add a b := by
    rw [hI]
    show Ext.add a b = Ext.add b a
    cases a with
    | inf s =>
      cases b with
      | inf t => cases s <;> cases t <;> rfl
      | _ => rfl
    | _ => cases b <;> simp [Ext.add, Ext.value, add_comm]
  mul a b := by
    rw [hI]
    show Ext.mul a b = Ext.mul b a
    cases a with
    | inf s =>
      cases b with
      | inf t => cases s <;> cases t <;> simp [Ext.mul, Ext.value, Ext.signNeg]
      | _ => simp [Ext.mul, Ext.value]
    | _ => cases b <;> simp [Ext.mul, Ext.value, mul_comm, Bool.xor_comm]
  twice a := by
    rw [hI]
    show Ext.mul (.fin ((-1 : Int) : K)) (Ext.mul (.fin ((-1 : Int) : K)) a) = a
    have h1 : ∀ b : Ext K, Ext.mul (.fin ((-1 : Int) : K)) b = Ext.neg b := by
      intro b
      cases b with
      | fin x =>
        by_cases h : x = 0
        · subst h
          simp [Ext.mul, Ext.value, Ext.neg, Ext.mk, Ext.signNeg]
        · simp [Ext.mul, Ext.value, Ext.neg, Ext.mk, h]
      | negZero => simp [Ext.mul, Ext.value, Ext.neg, Ext.mk, Ext.signNeg]
      | inf s => cases s <;> simp [Ext.mul, Ext.value, Ext.neg, Ext.signNeg]
      | nan => rfl
    rw [h1, h1]
    cases a with
    | fin x =>
      by_cases h : x = 0
      · subst h
        simp [Ext.neg, Ext.mk]
      · simp [Ext.neg, Ext.mk, h]
    | negZero => simp [Ext.neg, Ext.mk]
    | inf s => simp [Ext.neg]
    | nan => rfl

end
end MUL

namespace MUL
open Out FArith Spec

/-! ## Witness: in binary64 and every context, `eq(2x-3=x,x)` and `eq((x)=-3+2*x,x)` have the same results. -/

example [UTable] (c : Context Double) (vs : List (Value Double)) :
    Finishes (fun n => quickEval Cfg.default n "eq(2x-3=x,x)".toList c) (.ok vs) ↔
      Finishes (fun n => quickEval Cfg.default n "eq((x)=-3+2*x,x)".toList c) (.ok vs) := by
  have h2 : (Ex.num ['2'] none).WF := wf_num (s := "2") (by decide)
  have h3 : (Ex.num ['3'] none).WF := wf_num (s := "3") (by decide)
  have hx : (Ex.var ['x']).WF := wf_name (n := "x") (by decide)
  have hv : ∀ v ∈ [['x']], NameShape v := by
    intro v hv
    simp only [List.mem_singleton] at hv
    subst hv
    exact nameShape_letters (by decide) (by decide)
  have hj : Juxtaposable ['2'] ['x'] := ⟨'2', 'x', [], [], rfl, rfl, nofun, Or.inl ⟨by decide, by decide⟩⟩
  let tx : Ex := .bin .juxt (.num ['2'] none) (.var ['x'])
  let tx' : Ex := .bin .mult (.num ['2'] none) (.var ['x'])
  have w1 : tx.WF := ⟨h2, hx, by decide, by decide, fun _ => hj⟩
  have w1' : tx'.WF := ⟨h2, hx, by decide, by decide, nofun⟩
  have w2 : (Ex.bin .sub tx (.num ['3'] none)).WF := ⟨w1, h3, by decide, by decide, nofun⟩
  have w2' : (Ex.bin .add (.neg (.num ['3'] none)) tx').WF := ⟨⟨h3, by decide⟩, w1', by decide, by decide, nofun⟩
  refine C109_text (cfg := Cfg.default) commutes_binary64 (by decide)
    (e := .eqs [.bin .sub tx (.num ['3'] none)] [.var ['x']] [['x']]) (e' := .eqs [.paren (.var ['x'])] [.bin .add (.neg (.num ['3'] none)) tx'] [['x']])
    ⟨rfl, ⟨w2, trivial⟩, ⟨hx, trivial⟩, Or.inl (by simp), by decide, hv⟩
    ⟨rfl, ⟨hx, trivial⟩, ⟨w2', trivial⟩, Or.inl (by simp), by decide, hv⟩ ?_ c vs
  have r1 : Rewritten (SameNumber Double Cfg.default) (.bin .sub tx (.num ['3'] none)) (.bin .add (.neg (.num ['3'] none)) tx') :=
    .trans _ _ _ (.minus _ _) (.trans _ _ _ (.symm _ _ (.sum _ _ (.neg _ (.num _ _)))) (.bin _ _ _ _ _ (.refl _) (.hidden _ _)))
  refine .trans _ _ _ (.left [] _ _ [] [.var ['x']] ['x'] r1) (.trans _ _ _ (.sides _ _ [.var ['x']] [.bin .add (.neg (.num ['3'] none)) tx'] _ rfl rfl
    (.cons (Or.inr rfl) .nil)) (.left [] _ _ [] _ _ (.symm _ _ (.parentheses _))))

/-- In exact arithmetic. -/
example [UTable] (c : Context Q) (vs : List (Value Q)) :
    Finishes (fun n => quickEval Cfg.default n "2x".toList c) (.ok vs) ↔ Finishes (fun n => quickEval Cfg.default n "x*2".toList c) (.ok vs) :=
  C109_text (cfg := Cfg.default) (commutes_exact rfl) (by decide) (e := .bin .juxt (.num ['2'] none) (.var ['x'])) (e' := .bin .mult (.var ['x']) (.num ['2'] none))
    ⟨wf_num (s := "2") (by decide), wf_name (n := "x") (by decide), by decide, by decide,
      fun _ => ⟨'2', 'x', [], [], rfl, rfl, nofun, Or.inl ⟨by decide, by decide⟩⟩⟩
    ⟨wf_name (n := "x") (by decide), wf_num (s := "2") (by decide), by decide, by decide, nofun⟩
    (.trans _ _ _ (.hidden _ _) (.product _ _ (.num _ _))) c vs

/-- Numbers can be written another way: `x+1/2` and `0.5+x`. -/
example [UTable] (c : Context Q) (vs : List (Value Q)) :
    Finishes (fun n => quickEval Cfg.default n "x+1/2".toList c) (.ok vs) ↔ Finishes (fun n => quickEval Cfg.default n "0.5+x".toList c) (.ok vs) := by
  have h1 : (Ex.num ['1'] none).WF := wf_num (s := "1") (by decide)
  have h2 : (Ex.num ['2'] none).WF := wf_num (s := "2") (by decide)
  have h5 : (Ex.num ['0'] (some ['5'])).WF := ⟨by decide, by rintro _ ⟨⟩; decide, Or.inl (by simp)⟩
  have hx : (Ex.var ['x']).WF := wf_name (n := "x") (by decide)
  have hn : NumberEx (.bin .div (.num ['1'] none) (.num ['2'] none)) := .bin _ _ _ (by decide) (.num _ _) (.num _ _)
  refine C109_text (cfg := Cfg.default) (commutes_exact rfl) (by decide) (e := .bin .add (.var ['x']) (.bin .div (.num ['1'] none) (.num ['2'] none)))
    (e' := .bin .add (.num ['0'] (some ['5'])) (.var ['x']))
    ⟨hx, ⟨h1, h2, by decide, by decide, nofun⟩, by decide, by decide, nofun⟩ ⟨h5, hx, by decide, by decide, nofun⟩ ?_ c vs
  exact .trans _ _ _ (.symm _ _ (.sum _ _ hn)) (.bin _ _ _ _ _ (.constant _ _ hn (.num _ _)
    ⟨2, .scalar (.fin (1 / 2)), by decide +kernel, by decide +kernel⟩) (.refl _))

end MUL
