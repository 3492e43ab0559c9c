import Verif.Spec.Provenance
import Verif.Proofs.ParserSafe
import Verif.Props.Combinatorics
import Verif.Props.Grammar
import Mathlib.Algebra.BigOperators.Group.List.Basic
import Mathlib.Data.List.Perm.Basic
import Mathlib.Data.List.TakeWhile
import Mathlib.Data.List.Induction
/-!
# C93: the parts of a parsed tree come from the text
-/

set_option linter.unusedSectionVars false

namespace MUL
open Out Spec

section
variable {F : Type}

theorem partsAll_eq (v : List (AST F)) : partsAll v = v.flatMap parts := by
  induction v with
  | nil => rfl
  | cons a v ih => simp [partsAll, ih]

theorem partsRows_eq (m : List (List (AST F))) : partsRows m = m.flatten.flatMap parts := by
  induction m with
  | nil => rfl
  | cons r m ih => simp [partsRows, partsAll_eq, ih]

theorem partsEqs_eq (es : List (AST F × AST F)) : partsEqs es = (es.flatMap fun e => [e.1, e.2]).flatMap parts := by
  induction es with
  | nil => rfl
  | cons e es ih => simp [partsEqs, ih]

theorem nameChars_append (l r : List (Part F)) : nameChars (l ++ r) = nameChars l + nameChars r := by simp [nameChars]

theorem nameChars_cons (p : Part F) (l : List (Part F)) : nameChars (p :: l) = nameChars [p] + nameChars l := by simp [nameChars]

theorem nameChars_perm {l r : List (Part F)} (h : l.Perm r) : nameChars l = nameChars r := by
  unfold nameChars
  exact (h.map _).sum_eq

theorem nameChars_node (l : List (Part F)) : nameChars (.node :: l) = nameChars l := by simp [nameChars]
theorem nameChars_name (n : Str) (l : List (Part F)) : nameChars (.name n :: l) = n.length + nameChars l := by simp [nameChars]
theorem nameChars_number (a : F) (l : List (Part F)) : nameChars (.number a :: l) = nameChars l := by simp [nameChars]

variable [FArith F]

theorem Spec.Part.From.mono {s t : Str} (h : s <:+: t) {p : Part F} (hp : p.From s) : p.From t := by
  cases p with
  | name n => exact List.IsInfix.trans hp h
  | number a =>
    rcases hp with h0 | ⟨w, hw, hp⟩
    · exact Or.inl h0
    · exact Or.inr ⟨w, hw.trans h, hp⟩
  | node => trivial

/-- What is shown of the tree of a text. -/
def Inv93 (s : Str) (t : AST F) : Prop :=
  (∀ p ∈ parts t, p.From s) ∧ nameChars (parts t) ≤ s.length ∧ (parts t).length + 1 ≤ 2 * s.length

/-- The same of the trees of several texts of total length `W` within `s`; `k` texts. -/
def Inv93L (s : Str) (W k : Nat) (l : List (Part F)) : Prop :=
  (∀ p ∈ l, p.From s) ∧ nameChars l ≤ W ∧ l.length + k ≤ 2 * W

theorem Inv93.one {s t : Str} {a : AST F} (h : Inv93 t a) (hs : t <:+: s) : Inv93L s t.length 1 (parts a) :=
  ⟨fun p hp => Part.From.mono hs (h.1 p hp), h.2.1, h.2.2⟩

theorem Inv93L.nil {s : Str} : Inv93L s 0 0 ([] : List (Part F)) := ⟨by simp, by simp [nameChars], by simp⟩

theorem Inv93L.append {s : Str} {W V k j : Nat} {l r : List (Part F)} (hl : Inv93L s W k l) (hr : Inv93L s V j r) :
    Inv93L s (W + V) (k + j) (l ++ r) := by
  refine ⟨?_, ?_, ?_⟩
  · intro p hp
    rcases List.mem_append.1 hp with h | h
    · exact hl.1 p h
    · exact hr.1 p h
  · rw [nameChars_append]; exact Nat.add_le_add hl.2.1 hr.2.1
  · have h1 := hl.2.2
    have h2 := hr.2.2
    rw [List.length_append]; omega

theorem Inv93L.all {s : Str} {ws : List Str} {ts : List (AST F)} (h : List.Forall₂ Inv93 ws ts) (hs : ∀ w ∈ ws, w <:+: s) :
    Inv93L s (ws.map List.length).sum ws.length (partsAll ts) := by
  induction h with
  | nil => exact Inv93L.nil
  | cons h1 _ ih =>
    have := (h1.one (hs _ (by simp))).append (ih fun w hw => hs w (by simp [hw]))
    simpa [partsAll, Nat.add_comm] using this

theorem Inv93L.perm {s : Str} {W k : Nat} {l r : List (Part F)} (h : Inv93L s W k l) (hp : l.Perm r) : Inv93L s W k r :=
  ⟨fun p hr => h.1 p (hp.mem_iff.2 hr), nameChars_perm hp ▸ h.2.1, hp.length_eq ▸ h.2.2⟩

/-- The node. -/
theorem Inv93L.node {s : Str} {W k : Nat} {t : AST F} {l : List (Part F)} (h : Inv93L s W k l) (ht : parts t = .node :: l)
    (hW : W < s.length ∨ W ≤ s.length ∧ 2 ≤ k) : Inv93 s t := by
  have h1 := h.2.1
  have h2 := h.2.2
  refine ⟨?_, ?_, ?_⟩
  · intro p hp
    rw [ht] at hp
    rcases List.mem_cons.1 hp with rfl | hp
    · trivial
    · exact h.1 p hp
  · rw [ht, nameChars_node]; omega
  · rw [ht, List.length_cons]; omega

/-- The node with a name. -/
theorem Inv93L.named {s n : Str} {W k : Nat} {t : AST F} {l : List (Part F)} (h : Inv93L s W k l) (hn : n <:+: s)
    (ht : parts t = .name n :: l ∨ parts t = .node :: .name n :: l) (hW : W + n.length + 1 < s.length) : Inv93 s t := by
  have h1 := h.2.1
  have h2 := h.2.2
  rcases ht with ht | ht
  · refine ⟨?_, ?_, ?_⟩
    · intro p hp
      rw [ht] at hp
      rcases List.mem_cons.1 hp with rfl | hp
      · exact hn
      · exact h.1 p hp
    · rw [ht, nameChars_name]; omega
    · rw [ht, List.length_cons]; omega
  · refine ⟨?_, ?_, ?_⟩
    · intro p hp
      rw [ht] at hp
      simp only [List.mem_cons] at hp
      rcases hp with rfl | rfl | hp
      · trivial
      · exact hn
      · exact h.1 p hp
    · rw [ht, nameChars_node, nameChars_name]; omega
    · rw [ht, List.length_cons, List.length_cons]; omega

/-- A filled-in zero. -/
theorem Inv93L.zero (s : Str) : Inv93L s 1 1 (parts (.scalar (FArith.ofInt 0) : AST F)) :=
  ⟨by simp [parts, Part.From], by simp [parts, nameChars], by simp [parts]⟩

end

/-! ## Pieces -/

theorem slice_infix {ε : Type} {l r : Str} {a b : Nat} (h : (slice l a b : Out ε Str) = .ok r) : r <:+: l ∧ r.length = b - a ∧ a ≤ b ∧ b ≤ l.length := by
  obtain ⟨h1, h2, rfl⟩ := slice_eq_ok.1 h
  refine ⟨(List.drop_suffix _ _).isInfix.trans (List.take_prefix _ _).isInfix, by simp; omega, h1, h2⟩

theorem infix_intercalate (ws : List Str) : (∀ w ∈ ws, w <:+: [','].intercalate ws) ∧
    (ws.map List.length).sum + (ws.length - 1) = ([','].intercalate ws).length := by
  induction ws with
  | nil => simp [List.intercalate]
  | cons w ws ih =>
    cases ws with
    | nil => simp [List.intercalate]
    | cons v ws =>
      have e : [','].intercalate (w :: v :: ws) = w ++ ([','] ++ [','].intercalate (v :: ws)) := by
        simp [List.intercalate]
      rw [e]
      refine ⟨?_, ?_⟩
      · intro u hu
        rcases List.mem_cons.1 hu with rfl | hu
        · exact (List.prefix_append _ _).isInfix
        · exact (ih.1 u hu).trans ⟨w ++ [','], [], by simp⟩
      · have := ih.2
        simp only [List.map_cons, List.sum_cons, List.length_cons, List.length_append, List.length_nil] at this ⊢
        omega

theorem args_infix (s : Str) : (∀ w ∈ getArgs s, w <:+: s) ∧ ((getArgs s).map List.length).sum + (getArgs s).length = s.length + 1 := by
  have h := infix_intercalate (getArgs s)
  have h2 := C04_join s
  rw [h2.1] at h
  refine ⟨h.1, ?_⟩
  have : 0 < (getArgs s).length := List.length_pos_iff.2 h2.2
  have := h.2
  omega

section
variable {F : Type} [FArith F] [UTable]

theorem post_forall₂ {ε α β : Type} {R : α → β → Prop} {f : α → Out ε β} (l : List α) (h : ∀ a ∈ l, Out.Post False (R a) (f a)) :
    Out.Post False (fun r => List.Forall₂ R l r) (l.mapM f) := by
  induction l with
  | nil => exact List.Forall₂.nil
  | cons a l ih =>
    rw [List.mapM_cons]
    refine Out.Post.bind (h a (by simp)) fun b hb => ?_
    refine Out.Post.bind (ih fun a ha => h a (by simp [ha])) fun r hr => ?_
    exact List.Forall₂.cons hb hr

variable {rec : Str → Out ParserError (AST F)}

theorem from_all (h : ∀ t, Out.Post False (Inv93 t) (rec t)) (l : List Str) :
    Out.Post False (fun r => List.Forall₂ Inv93 l r) (parseAll rec l) := post_forall₂ l fun a _ => h a

/-- The arguments between the positions `a` and `b`. -/
theorem from_args {s inner : Str} {ts : List (AST F)} (hin : inner <:+: s) (h : List.Forall₂ Inv93 (getArgs inner) ts) :
    ∃ W k, 1 ≤ k ∧ W + k = inner.length + 1 ∧ Inv93L s W k (partsAll ts) := by
  have h1 := args_infix inner
  refine ⟨_, _, ?_, h1.2, Inv93L.all h fun w hw => (h1.1 w hw).trans hin⟩
  exact List.length_pos_iff.2 (getArgs_ne_nil inner)

theorem from_function (h : ∀ t, Out.Post False (Inv93 t) (rec t)) {cs : Str} :
    ∀ res, parseFunction rec cs = some res → Out.Post False (Inv93 cs) res := by
  intro res hres
  unfold parseFunction at hres
  split at hres
  · cases hres
  rename_i op p hfind
  have hp : 2 ≤ p.length := by
    have hm := List.mem_of_find?_eq_some hfind
    revert hm
    generalize hq : (op, p) = q
    intro hm
    have : ∀ q ∈ functionLookUp, 2 ≤ q.2.length := by decide
    have := this q hm
    rw [← hq] at this
    exact this
  cases hres
  split
  · refine Out.Post.bind (slice_post' fun h => h.elim) fun inner hin => ?_
    have hs := slice_infix hin
    have ha := args_infix inner
    simp only
    split
    · trivial
    · rename_i hlen
      obtain ⟨w, v, hwv⟩ := List.length_eq_two.1 (not_not.1 hlen)
      refine Out.Post.bind (idx_post' fun h => h.elim) fun a0 h0 => ?_
      refine Out.Post.bind (h a0) fun l hl => ?_
      refine Out.Post.bind (idx_post' fun h => h.elim) fun a1 h1 => ?_
      refine Out.Post.bind (h a1) fun r hr => ?_
      rw [hwv] at h0 h1 ha
      cases h0
      cases h1
      have h2 := (hl.one ((ha.1 _ (by simp)).trans hs.1)).append (hr.one ((ha.1 _ (by simp)).trans hs.1))
      have h3 := ha.2
      simp only [List.map_cons, List.map_nil, List.sum_cons, List.sum_nil, List.length_cons, List.length_nil] at h3
      exact h2.node rfl (Or.inl (by omega))
  · refine Out.Post.bind (slice_post' fun h => h.elim) fun inner hin => ?_
    have hs := slice_infix hin
    refine Out.Post.bind (h inner) fun l hl => ?_
    exact ((hl.one hs.1).append (Inv93L.zero cs)).node rfl (Or.inl (by omega))

theorem takeWhile_infix {α : Type} (p : α → Bool) (l : List α) : l.takeWhile p <:+: l := (List.takeWhile_prefix p).isInfix

theorem splitEq_infix {s : Str} (h : s.contains '=' = true) : (splitEq s).1 <:+: s ∧ (splitEq s).2 <:+: s ∧
    (splitEq s).1.length + (splitEq s).2.length + 1 ≤ s.length := by
  have hd : s.takeWhile (· != '=') ++ s.dropWhile (· != '=') = s := List.takeWhile_append_dropWhile
  have hne : s.dropWhile (· != '=') ≠ [] := by
    intro h0
    rw [h0, List.append_nil] at hd
    have : '=' ∈ s.takeWhile (· != '=') := by rw [hd]; simpa using h
    have := List.mem_takeWhile_imp this
    simp at this
  have h1 : ((s.dropWhile (· != '=')).drop 1).takeWhile (· != '=') <:+: s.dropWhile (· != '=') :=
    (takeWhile_infix _ _).trans (List.drop_suffix _ _).isInfix
  refine ⟨takeWhile_infix _ _, h1.trans (List.dropWhile_suffix _).isInfix, ?_⟩
  have h2 : (((s.dropWhile (· != '=')).drop 1).takeWhile (· != '=')).length ≤ (s.dropWhile (· != '=')).length - 1 := by
    refine (takeWhile_infix _ _).length_le.trans ?_
    simp
  have h3 := congrArg List.length hd
  have h4 := List.length_pos_iff.2 hne
  rw [List.length_append] at h3
  simp only [splitEq]
  omega

/-- What is shown of an entry of `eq(...)`. -/
def EntryInv (s : Str) : Sum (AST F × AST F) Str → Prop
  | .inl e => Inv93L s (s.length - 1) 2 (parts e.1 ++ parts e.2) ∧ 0 < s.length
  | .inr n => n = s

theorem from_eqEntry (h : ∀ t, Out.Post False (Inv93 t) (rec t)) (s : Str) : Out.Post False (EntryInv s) (parseEqEntry rec s) := by
  unfold parseEqEntry
  split
  · rfl
  · rename_i hc
    have hc' : s.contains '=' = true := by simpa using hc
    obtain ⟨i1, i2, i3⟩ := splitEq_infix hc'
    simp only
    have key : ∀ {l r : AST F} {v w : Str}, Inv93 v l → Inv93 w r → v <:+: s → w <:+: s → v.length + w.length + 1 ≤ s.length →
        EntryInv s (Sum.inl (l, r)) := by
      intro l r v w hl hr hv hw hlen
      have := (hl.one hv).append (hr.one hw)
      refine ⟨⟨this.1, this.2.1.trans (by omega), this.2.2.trans (by omega)⟩, by omega⟩
    split
    · refine Out.Post.bind (h _) fun l hl => ?_
      refine Out.Post.bind (h _) fun r hr => ?_
      exact key hl hr i1 i2 i3
    · refine Out.Post.bind (h _) fun l hl => ?_
      refine Out.Post.bind (h _) fun r hr => ?_
      exact key hl hr i2 i1 (by omega)

/-- The entries of `eq(...)`. -/
theorem from_entries {s : Str} {ws : List Str} {entries : List (Sum (AST F × AST F) Str)} (h : List.Forall₂ EntryInv ws entries)
    (hs : ∀ w ∈ ws, w <:+: s) :
    (∀ p ∈ ((entries.filterMap Sum.getRight?).map Part.name ++ partsEqs (entries.filterMap Sum.getLeft?) : List (Part F)), p.From s) ∧
    nameChars ((entries.filterMap Sum.getRight?).map Part.name ++ partsEqs (entries.filterMap Sum.getLeft?) : List (Part F)) ≤ (ws.map List.length).sum ∧
    ((entries.filterMap Sum.getRight?).map Part.name ++ partsEqs (entries.filterMap Sum.getLeft?) : List (Part F)).length ≤
      2 * (ws.map List.length).sum + ws.length := by
  induction h with
  | nil => simp [partsEqs, nameChars]
  | @cons w e ws es h1 _ ih =>
    obtain ⟨j1, j2, j3⟩ := ih fun w hw => hs w (by simp [hw])
    rw [nameChars_append] at j2
    rw [List.length_append] at j3
    cases e with
    | inl e =>
      obtain ⟨⟨k1, k2, k3⟩, k4⟩ := h1
      simp only [List.filterMap_cons, Sum.getRight?, Sum.getLeft?, partsEqs, List.map_cons, List.sum_cons, List.length_cons]
      rw [nameChars_append, nameChars_append]
      simp only [List.length_append] at k3 ⊢
      refine ⟨?_, by omega, by omega⟩
      intro p hp
      simp only [List.mem_append] at hp
      rcases hp with hp | hp | hp
      · exact j1 p (List.mem_append_left _ hp)
      · exact Part.From.mono (hs w (by simp)) (k1 p (List.mem_append.2 hp))
      · exact j1 p (List.mem_append_right _ hp)
    | inr n =>
      obtain rfl : n = w := h1
      simp only [List.filterMap_cons, Sum.getRight?, Sum.getLeft?, List.map_cons, List.sum_cons, List.length_cons, List.cons_append]
      rw [nameChars_name, nameChars_append]
      simp only [List.length_append]
      refine ⟨?_, by omega, by omega⟩
      intro p hp
      rcases List.mem_cons.1 hp with rfl | hp
      · exact hs n (by simp)
      · exact j1 p hp

theorem from_advanced (h : ∀ t, Out.Post False (Inv93 t) (rec t)) {cs : Str} :
    ∀ res, parseAdvanced rec cs = some res → Out.Post False (Inv93 cs) res := by
  intro res hres
  unfold parseAdvanced at hres
  split at hres
  · cases hres
    refine Out.Post.bind (slice_post' fun h => h.elim) fun inner hin => ?_
    have hs := slice_infix hin
    have ha := args_infix inner
    simp only
    split
    · trivial
    · rename_i hlen
      obtain ⟨w0, w1, w2, w3, hw⟩ : ∃ a b c d, getArgs inner = [a, b, c, d] := by
        have hl := not_not.1 hlen
        match hg : getArgs inner, hl with
        | [a, b, c, d], _ => exact ⟨a, b, c, d, rfl⟩
      rw [hw] at ha ⊢
      refine Out.Post.bind (idx_post' fun h => h.elim) fun a0 h0 => ?_
      refine Out.Post.bind (h a0) fun f hf => ?_
      refine Out.Post.bind (idx_post' fun h => h.elim) fun a2 h2 => ?_
      refine Out.Post.bind (h a2) fun lb hlb => ?_
      refine Out.Post.bind (idx_post' fun h => h.elim) fun a3 h3 => ?_
      refine Out.Post.bind (h a3) fun ub hub => ?_
      refine Out.Post.bind (idx_post' fun h => h.elim) fun a1 h1 => ?_
      cases h0; cases h1; cases h2; cases h3
      have hx := ha.2
      simp only [List.map_cons, List.map_nil, List.sum_cons, List.sum_nil, List.length_cons, List.length_nil] at hx
      have hi : ∀ w ∈ [w0, w1, w2, w3], w <:+: cs := fun w hw => (ha.1 w hw).trans hs.1
      exact (((hf.one (hi _ (by simp))).append (hlb.one (hi _ (by simp)))).append (hub.one (hi _ (by simp)))).named (hi w1 (by simp)) (Or.inr rfl) (by omega)
  split at hres
  · cases hres
    refine Out.Post.bind (slice_post' fun h => h.elim) fun inner hin => ?_
    have hs := slice_infix hin
    have ha := args_infix inner
    simp only
    split
    · trivial
    · rename_i hlen
      obtain ⟨w0, w1, w2, hw⟩ := List.length_eq_three.1 (not_not.1 hlen)
      rw [hw] at ha ⊢
      refine Out.Post.bind (idx_post' fun h => h.elim) fun a0 h0 => ?_
      refine Out.Post.bind (h a0) fun f hf => ?_
      refine Out.Post.bind (idx_post' fun h => h.elim) fun a2 h2 => ?_
      refine Out.Post.bind (h a2) fun lb hlb => ?_
      refine Out.Post.bind (idx_post' fun h => h.elim) fun a1 h1 => ?_
      cases h0; cases h1; cases h2
      have hx := ha.2
      simp only [List.map_cons, List.map_nil, List.sum_cons, List.sum_nil, List.length_cons, List.length_nil] at hx
      have hi : ∀ w ∈ [w0, w1, w2], w <:+: cs := fun w hw => (ha.1 w hw).trans hs.1
      exact ((hf.one (hi _ (by simp))).append (hlb.one (hi _ (by simp)))).named (hi w1 (by simp)) (Or.inr rfl) (by omega)
  split at hres
  · cases hres
    refine Out.Post.bind (slice_post' fun h => h.elim) fun inner hin => ?_
    have hs := slice_infix hin
    have ha := args_infix inner
    refine Out.Post.bind (post_forall₂ _ fun a _ => from_eqEntry h a) fun entries hen => ?_
    obtain ⟨k1, k2, k3⟩ := from_entries hen fun w hw => (ha.1 w hw).trans hs.1
    have hx := ha.2
    refine ⟨?_, ?_, ?_⟩
    · intro p hp
      rw [parts] at hp
      rcases List.mem_cons.1 hp with rfl | hp
      · trivial
      · exact k1 p hp
    · rw [parts, nameChars_node]; omega
    · rw [parts, List.length_cons]; omega
  · cases hres

theorem transpose_perm {α : Type} (n : Nat) (m : List (List α)) (h : ∀ r ∈ m, r.length = n) : m.flatten.Perm (transpose n m).flatten := by
  induction m with
  | nil =>
    have : (transpose n ([] : List (List α))).flatten = [] := by simp [transpose]
    rw [this]; exact .refl _
  | cons r m ih =>
    have hr := h r (by simp)
    have e : (transpose n (r :: m)).flatten = (List.range n).flatMap fun i => (r[i]?).toList ++ m.filterMap fun r => r[i]? := by
      unfold transpose
      rw [List.flatMap_def]
      congr 1
      refine List.map_congr_left fun i hi => ?_
      rw [List.filterMap_cons]
      cases r[i]? <;> rfl
    rw [e, List.flatten_cons]
    refine List.Perm.trans ?_ (List.flatMap_append_perm _ _ _)
    refine List.Perm.append ?_ ?_
    · have : (List.range n).flatMap (fun i => (r[i]?).toList) = r := by
        subst hr
        clear h ih e
        induction r using List.reverseRecOn with
        | nil => rfl
        | append_singleton r a ihr =>
          rw [List.length_append, List.length_singleton, List.range_succ, List.flatMap_append]
          congr 1
          · conv_rhs => rw [← ihr]
            refine List.flatMap_congr fun i hi => ?_
            rw [List.getElem?_append_left (List.mem_range.1 hi)]
          · simp
      rw [this]
    · have := ih fun r hr => h r (by simp [hr])
      refine this.trans (List.Perm.of_eq ?_)
      rw [transpose, List.flatMap_def]

theorem rows_parts {v : List (AST F)} {m : List (List (AST F))} (h : List.Forall₂ (fun a r => a = .vector r) v m) :
    (∀ p ∈ partsRows m, p ∈ partsAll v) ∧ nameChars (partsAll v) = nameChars (partsRows m) ∧ (partsRows m).length ≤ (partsAll v).length := by
  induction h with
  | nil => simp [partsRows, partsAll]
  | cons h1 _ ih =>
    subst h1
    obtain ⟨i1, i2, i3⟩ := ih
    simp only [partsRows, partsAll, parts, List.cons_append]
    refine ⟨?_, ?_, ?_⟩
    · intro p hp
      rcases List.mem_append.1 hp with hp | hp
      · exact List.mem_cons_of_mem _ (List.mem_append_left _ hp)
      · exact List.mem_cons_of_mem _ (List.mem_append_right _ (i1 p hp))
    · rw [nameChars_node, nameChars_append, nameChars_append, i2]
    · simp only [List.length_append, List.length_cons]
      omega

theorem from_value {cfg : Cfg} (h : ∀ t, Out.Post False (Inv93 t) (rec t)) {cs : Str} (hne : 0 < cs.length) :
    Out.Post False (Inv93 cs) (parseValue cfg rec cs) := by
  unfold parseValue
  split
  · split
    · rename_i f hf
      refine ⟨?_, by simp [parts, nameChars], by simp [parts]; omega⟩
      intro p hp
      obtain rfl : p = .number f := by simpa [parts] using hp
      exact Or.inr ⟨cs, List.infix_rfl, hf⟩
    · trivial
  · split
    · refine Out.Post.bind (idx_post' fun h => h.elim) fun c0 _ => ?_
      split
      · trivial
      · refine Out.Post.bind (idx_post' fun h => h.elim) fun cl hcl => ?_
        split
        · trivial
        · refine Out.Post.bind (slice_post' fun h => h.elim) fun inner hin => ?_
          have hs := slice_infix hin
          have hlt : byteLen cs - 1 < cs.length := (List.getElem?_eq_some_iff.1 hcl).1
          have ha := args_infix inner
          refine Out.Post.bind (idx_post' fun h => h.elim) fun a0 ha0 => ?_
          split
          · trivial
          · refine Out.Post.bind (from_all h _) fun outputV hV => ?_
            obtain ⟨W, k, hk, hW, hI⟩ := from_args hs.1 hV
            simp only
            split
            · exact hI.node rfl (Or.inl (by omega))
            · split
              · have hrow : ∀ a : AST F, Out.Post False (fun r => a = .vector r) (asRow a) := by
                  intro a
                  cases a <;> first | rfl | trivial
                refine Out.Post.bind (post_forall₂ outputV fun a _ => hrow a) fun outputM hM => ?_
                have hrows : ∃ j ≤ k, Inv93L cs W j (partsRows outputM) := by
                  obtain ⟨r1, r2, r3⟩ := rows_parts hM
                  exact ⟨k, Nat.le_refl k, fun p hp => hI.1 p (r1 p hp), r2 ▸ hI.2.1, by have := hI.2.2; omega⟩
                refine Out.Post.bind (idx_post' fun h => h.elim) fun m0 hm0 => ?_
                split
                · trivial
                · rename_i hany
                  obtain ⟨j, _, hj⟩ := hrows
                  split
                  · exact hj.node rfl (Or.inl (by omega))
                  · have hlen : ∀ r ∈ outputM, r.length = m0.length := by
                      intro r hr
                      by_contra hc
                      exact hany (List.any_eq_true.2 ⟨r, hr, by simpa using hc⟩)
                    have hmne : outputM ≠ [] := by
                      rintro rfl
                      cases hm0
                    rw [colMatrix_eq outputM m0.length hmne hlen]
                    have hp := transpose_perm m0.length outputM hlen
                    have := hj.perm (r := partsRows (transpose m0.length outputM)) (by
                      rw [partsRows_eq, partsRows_eq]
                      exact hp.flatMap_right _)
                    exact this.node rfl (Or.inl (by omega))
              · trivial
    · trivial

theorem from_atom {cfg : Cfg} (h : ∀ t, Out.Post False (Inv93 t) (rec t)) {cs : Str} (hne : 0 < cs.length) :
    Out.Post False (Inv93 cs) (parseAtom cfg rec cs) := by
  unfold parseAtom
  refine Out.Post.bind (idx_post' fun h => h.elim) fun c0 hc0 => ?_
  refine Out.Post.bind (idx_post' fun h => h.elim) fun cl hcl => ?_
  split
  · refine Out.Post.bind (slice_post' fun h => h.elim) fun inner hin => ?_
    have hs := slice_infix hin
    refine Out.Post.bind (from_all h _) fun args hargs => ?_
    obtain ⟨W, k, hk, hW, hI⟩ := from_args hs.1 hargs
    refine Out.Post.bind (isValidVarName_post fun h => h.elim) fun v hv => ?_
    split
    · trivial
    · have hb : (cs.takeWhile (· != '(')).length ≤ findParen cs := by
        unfold findParen
        generalize cs.takeWhile (· != '(') = l
        induction l with
        | nil => simp
        | cons c l ih =>
          have := Char.utf8Size_pos c
          simp only [byteLen, List.map_cons, List.sum_cons, List.length_cons] at ih ⊢
          omega
      exact hI.named (takeWhile_infix _ cs) (Or.inl rfl) (by omega)
  · split
    · refine Out.Post.bind (isValidVarName_post fun h => h.elim) fun v hv => ?_
      split
      · trivial
      · refine ⟨?_, by simp [parts, nameChars], by simp [parts]; omega⟩
        intro p hp
        obtain rfl : p = .name cs := by simpa [parts] using hp
        exact List.infix_rfl
    · split
      · refine Out.Post.bind (slice_post' fun h => h.elim) fun inner hin => ?_
        have hs := slice_infix hin
        refine Out.Post.bind (from_all h _) fun l hl => ?_
        obtain ⟨W, k, hk, hW, hI⟩ := from_args hs.1 hl
        exact hI.node rfl (Or.inl (by omega))
      · exact from_value h hne

theorem from_step {cfg : Cfg} (h : ∀ t, Out.Post False (Inv93 t) (rec t)) (cs : Str) : Out.Post False (Inv93 cs) (parseStep cfg rec cs) := by
  unfold parseStep
  split
  · trivial
  · rename_i hemp
    have hne : 0 < cs.length := by
      rcases cs with _ | ⟨c, cs⟩
      · simp at hemp
      · simp
    simp only
    split
    · trivial
    split
    · trivial
    refine Out.Post.bind (idx_post' fun h => h.elim) fun c0 hc0 => ?_
    refine Out.Post.bind (idx_post' fun h => h.elim) fun cl hcl => ?_
    split
    · refine Out.Post.bind (slice_post' fun h => h.elim) fun inner hin => ?_
      have hs := slice_infix hin
      refine Out.Post.bind (h inner) fun l hl => ?_
      exact ((hl.one hs.1).append (Inv93L.zero cs)).node rfl (Or.inr (by omega))
    · split
      · rename_i o ho
        obtain ⟨o1, o2, o3⟩ := splitOp_ok ho
        refine Out.Post.bind (slice_post' fun h => h.elim) fun leftS hL => ?_
        refine Out.Post.bind (slice_post' fun h => h.elim) fun rightS hR => ?_
        have hL' := slice_infix hL
        have hR' := slice_infix hR
        refine Out.Post.bind (h rightS) fun r hr => ?_
        split
        · rename_i hemp
          have h0 : leftS.length = 0 := by simpa using hemp
          exact ((Inv93L.zero cs).append (hr.one hR'.1)).node rfl (Or.inr (by omega))
        · refine Out.Post.bind (h leftS) fun l hl => ?_
          exact ((hl.one hL'.1).append (hr.one hR'.1)).node rfl (Or.inr (by omega))
      · split
        · rename_i res hres
          exact from_function h res hres
        · split
          · rename_i res hres
            exact from_advanced h res hres
          · exact from_atom h hne

theorem from_fuel (cfg : Cfg) (n : Nat) (s : Str) : Out.Post False (Inv93 s) (parseFuel cfg n s : Out ParserError (AST F)) := by
  induction n generalizing s with
  | zero => trivial
  | succ n ih => exact from_step ih s

theorem stripBlanks_le (s : Str) : (stripBlanks s).length ≤ s.length := by
  unfold stripBlanks trim
  refine (List.length_filter_le _ _).trans ?_
  rw [List.length_reverse]
  refine (List.dropWhile_suffix _).isInfix.length_le.trans ?_
  rw [List.length_reverse]
  exact (List.dropWhile_suffix _).isInfix.length_le

/-- **C93.** Nothing is invented: every name in the tree of a text is a piece of the text (without blanks), every number is read from a piece of
it, or is the `0` filled in for a missing operand. -/
theorem C93_from_text (cfg : Cfg) (text : Str) (t : AST F) (h : parse cfg text = .ok t) : ∀ p ∈ parts t, p.From (stripBlanks text) := by
  have := from_fuel (F := F) cfg ((stripBlanks text).length + 1) (stripBlanks text)
  unfold parse parseInner at h
  rw [h] at this
  exact this.1

/-- **C93.** The names in the tree together have no more characters than the text (without blanks); a text of `k` characters gives a tree
of at most `2k-1` names, numbers and other nodes. -/
theorem C93_size (cfg : Cfg) (text : Str) (t : AST F) (h : parse cfg text = .ok t) :
    nameChars (parts t) ≤ (stripBlanks text).length ∧ (parts t).length ≤ 2 * (stripBlanks text).length - 1 ∧
      (stripBlanks text).length ≤ text.length := by
  have := from_fuel (F := F) cfg ((stripBlanks text).length + 1) (stripBlanks text)
  unfold parse parseInner at h
  rw [h] at this
  refine ⟨this.2.1, ?_, stripBlanks_le text⟩
  have := this.2.2
  omega

theorem highest_add (l : List OpAt) : l.foldl (fun h i => let j := opTypes.idxOf i.op; if j < h then j else h) 0 = 0 := by
  induction l with
  | nil => rfl
  | cons a l ih => simpa using ih

theorem split_plus (s : Str) (hs : s ≠ []) : splitOp ('+' :: s) = some ⟨.add, 0, 0, 1⟩ := by
  obtain ⟨c, s, rfl⟩ := List.exists_cons_of_ne_nil hs
  have h1 : ∃ l, opsInExpr ('+' :: c :: s) = ⟨.add, 0, 0, 1⟩ :: l := by
    have hh : isHiddenMult ('+' :: c :: s) 0 '\\' '+' = false := by
      have d1 : Char.isDigit '\\' = false := by decide
      have d2 : ('\\' == ')') = false := by decide
      simp [isHiddenMult, d1, d2]
    refine ⟨opsLoop ('+' :: c :: s) (c :: s) 1 '+' 0 0 0, ?_⟩
    rw [opsInExpr, opsLoop, hh]
    simp [getOpSymbol]
  obtain ⟨l, hl⟩ := h1
  have h2 : highestOp (⟨.add, 0, 0, 1⟩ :: l) = 0 := by
    rw [highestOp, List.foldl_cons]
    exact highest_add l
  unfold splitOp
  simp only [hl, h2]
  simp [opTypes]

/-- A plus sign in front of an expression adds it to the filled-in `0`. -/
theorem parse_plus (cfg : Cfg) (s : Str) (hs : s ≠ []) (hp : parens s = 0) (t : AST F) (ht : parseInner cfg s = .ok t) :
    parseInner cfg ('+' :: s) = .ok (.simple .add (.scalar (FArith.ofInt 0)) t) := by
  rw [parseInner_eq, parseStep]
  have hd : (checkLoop ('+' :: s).length ('+' :: s) 0 0 true).1 = 0 := by
    rw [checkLoop_depth, parens_cons, hp]
    decide
  generalize checkLoop ('+' :: s).length ('+' :: s) 0 0 true = q at hd
  obtain ⟨d, b⟩ := q
  obtain rfl : d = 0 := hd
  have hlast : ∃ cl, (idx ('+' :: s) (('+' :: s).length - 1) : Out ParserError Char) = .ok cl := by
    have : ('+' :: s).length - 1 < ('+' :: s).length := by simp
    exact ⟨('+' :: s)[('+' :: s).length - 1], by simp [idx, Out.unwrap]⟩
  obtain ⟨cl, hcl⟩ := hlast
  have h0 : (idx ('+' :: s) 0 : Out ParserError Char) = .ok '+' := rfl
  have hsl : (slice ('+' :: s) 0 0 : Out ParserError Str) = .ok [] := by simp [slice]
  have hsr : (slice ('+' :: s) 1 (s.length + 1) : Out ParserError Str) = .ok s := by simp [slice]
  simp only [List.isEmpty_cons, Bool.false_eq_true, if_false, hcl, h0, ok_bind, split_plus s hs]
  simp [hsl, hsr, ht]

/-- **C93.** The bound is attained: for every `k` there is a text of `k+1` characters whose tree has `2(k+1)-1` names, numbers and other
nodes. -/
theorem C93_attained (cfg : Cfg) (k : Nat) :
    ∃ (text : Str) (t : AST F), text.length = k + 1 ∧ stripBlanks text = text ∧ parse cfg text = .ok t ∧ (parts t).length = 2 * (k + 1) - 1 := by
  have hmem : ∀ c ∈ List.replicate k '+' ++ ['x'], c = '+' ∨ c = 'x' := by
    intro c hc
    rcases List.mem_append.1 hc with h | h
    · exact Or.inl (List.eq_of_mem_replicate h)
    · exact Or.inr (by simpa using h)
  have hst : stripBlanks (List.replicate k '+' ++ ['x']) = List.replicate k '+' ++ ['x'] := by
    apply stripBlanks_good
    intro c hc
    rcases hmem c hc with rfl | rfl <;> decide
  have key : ∃ t : AST F, parseInner cfg (List.replicate k '+' ++ ['x']) = .ok t ∧ (parts t).length = 2 * (k + 1) - 1 := by
    clear hst hmem
    induction k with
    | zero => exact ⟨.variable ['x'], parse_var (nameShape_letters (by decide) (by decide)), by simp [parts]⟩
    | succ k ih =>
      obtain ⟨t, h1, h2⟩ := ih
      have hz : parens (List.replicate k '+' ++ ['x']) = 0 := by
        unfold parens
        rw [List.count_eq_zero_of_not_mem, List.count_eq_zero_of_not_mem]
        · simp
        all_goals simp [List.mem_replicate]
      refine ⟨_, parse_plus cfg _ (by simp) hz t h1, ?_⟩
      simp only [parts, List.length_cons, List.length_append, List.length_nil]
      omega
  obtain ⟨t, h1, h2⟩ := key
  exact ⟨_, t, by simp, hst, by rw [parse, hst]; exact h1, h2⟩

/-- `D(2*x,x,3)`: the names `x`, `x`; the numbers `2`, `3`. -/
example (cfg : Cfg) : ∃ t : AST F, parse cfg "D(2*x,x,3)".toList = .ok t ∧
    parts t = [.node, .name ['x'], .node, .number (FArith.ofDec 2 0), .name ['x'], .number (FArith.ofDec 3 0)] := by
  have wx : (Ex.var ['x']).WF := wf_name (n := "x") (by decide)
  have := C09_parse_text (F := F) cfg (.deriv (.bin .mult (.num ['2'] none) (.var ['x'])) ['x'] (.num ['3'] none))
    ⟨⟨wf_num (s := "2") (by decide), wx, by decide, by decide, nofun⟩, nameShape_letters (by decide) (by decide), wf_num (s := "3") (by decide)⟩
  refine ⟨_, this, ?_⟩
  simp [Ex.tree, parts]
  exact ⟨rfl, rfl⟩

end
end MUL
