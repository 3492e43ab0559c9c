import Verif.Model.Equality
import Verif.Spec.Equality
import Verif.Proofs.AstInd
import Verif.Proofs.ParserNums
import Verif.Props.EvalCtx
import Verif.Props.FloatLaws
import Mathlib.Data.List.Forall2
/-!
# C85: equality of values, expressions and contexts
-/

namespace MUL
open Out Spec

set_option linter.unusedSectionVars false

section
variable {F : Type} [FArith F]

theorem forall₂_zip {α β : Type} {R : α → β → Prop} {v : List α} {w : List β} :
    List.Forall₂ R v w ↔ v.length = w.length ∧ ∀ p ∈ v.zip w, R p.1 p.2 := by
  rw [List.forall₂_iff_zip]
  constructor
  · exact fun h => ⟨h.1, fun p hp => h.2 hp⟩
  · exact fun h => ⟨h.1, fun {a b} hp => h.2 (a, b) hp⟩

theorem forall₂_congr {α β : Type} {R S : α → β → Prop} {v : List α} (h : ∀ a ∈ v, ∀ b, R a b ↔ S a b) {w : List β} :
    List.Forall₂ R v w ↔ List.Forall₂ S v w := by
  induction v generalizing w with
  | nil => cases w <;> simp
  | cons a v ih =>
    cases w with
    | nil => simp
    | cons b w =>
      rw [List.forall₂_cons, List.forall₂_cons, h a (by simp) b, ih fun a ha => h a (by simp [ha])]

theorem beqAll_iff (v w : List (AST F)) : beqAll v w = true ↔ List.Forall₂ (fun a b => a.beq b = true) v w := by
  induction v generalizing w with
  | nil => cases w <;> simp [beqAll]
  | cons a v ih => cases w <;> simp [beqAll, ih]

theorem beqAllRows_iff (v w : List (List (AST F))) :
    beqAllRows v w = true ↔ List.Forall₂ (List.Forall₂ fun a b => a.beq b = true) v w := by
  induction v generalizing w with
  | nil => cases w <;> simp [beqAllRows]
  | cons a v ih => cases w <;> simp [beqAllRows, ih, beqAll_iff]

theorem beqEqs_iff (v w : List (AST F × AST F)) :
    beqEqs v w = true ↔ List.Forall₂ (fun a b => a.1.beq b.1 = true ∧ a.2.beq b.2 = true) v w := by
  induction v generalizing w with
  | nil => cases w <;> simp [beqEqs]
  | cons a v ih => cases a; cases w with
    | nil => simp [beqEqs]
    | cons b w => cases b; simp [beqEqs, ih, and_assoc]

/-- C85: two expressions are `==` exactly if they have the same form and their numbers are `==`. -/
theorem C85_trees (t u : AST F) : t.beq u = true ↔ Alike (fun a b => FArith.beq a b = true) t u := by
  induction t using AST.ind generalizing u with
  | scalar s =>
    cases u <;> simp only [AST.beq, Bool.false_eq_true, false_iff] <;> try (intro h; cases h)
    exact ⟨fun h => .scalar _ _ h, fun h => by cases h; assumption⟩
  | vector v ih =>
    cases u <;> simp only [AST.beq, Bool.false_eq_true, false_iff] <;> try (intro h; cases h)
    rw [beqAll_iff, forall₂_congr ih, forall₂_zip]
    exact ⟨fun h => .vector _ _ h.1 h.2, fun h => by cases h; exact ⟨‹_›, ‹_›⟩⟩
  | matrix v ih =>
    cases u <;> simp only [AST.beq, Bool.false_eq_true, false_iff] <;> try (intro h; cases h)
    rw [beqAllRows_iff, forall₂_congr (S := List.Forall₂ (Alike fun a b => FArith.beq a b = true)) fun r hr w => forall₂_congr (ih r hr),
      forall₂_zip]
    simp only [forall₂_zip]
    refine ⟨fun h => .matrix _ _ h.1 (fun p hp => (h.2 p hp).1) (fun p hp => (h.2 p hp).2), fun h => ?_⟩
    cases h with
    | matrix _ _ h1 h2 h3 => exact ⟨h1, fun p hp => ⟨h2 p hp, h3 p hp⟩⟩
  | list v ih =>
    cases u <;> simp only [AST.beq, Bool.false_eq_true, false_iff] <;> try (intro h; cases h)
    rw [beqAll_iff, forall₂_congr ih, forall₂_zip]
    exact ⟨fun h => .list _ _ h.1 h.2, fun h => by cases h; exact ⟨‹_›, ‹_›⟩⟩
  | var n =>
    cases u <;> simp only [AST.beq, Bool.false_eq_true, false_iff] <;> try (intro h; cases h)
    rw [beq_iff_eq]
    exact ⟨by rintro rfl; exact .variable _, fun h => by cases h; rfl⟩
  | function n v ih =>
    cases u <;> simp only [AST.beq, Bool.false_eq_true, false_iff] <;> try (intro h; cases h)
    rw [Bool.and_eq_true, beq_iff_eq, beqAll_iff, forall₂_congr ih, forall₂_zip]
    exact ⟨by rintro ⟨rfl, h⟩; exact .function _ _ _ h.1 h.2, fun h => by cases h; exact ⟨rfl, ‹_›, ‹_›⟩⟩
  | simple op l r ihl ihr =>
    cases u <;> simp only [AST.beq, Bool.false_eq_true, false_iff] <;> try (intro h; cases h)
    rw [Bool.and_eq_true, Bool.and_eq_true, beq_iff_eq, ihl, ihr]
    exact ⟨by rintro ⟨⟨rfl, h⟩, h'⟩; exact .simple _ _ _ _ _ h h', fun h => by cases h; exact ⟨⟨rfl, ‹_›⟩, ‹_›⟩⟩
  | integral e x l u' ihe ihl ihu =>
    cases u <;> simp only [AST.beq, Bool.false_eq_true, false_iff] <;> try (intro h; cases h)
    simp only [Bool.and_eq_true, beq_iff_eq, ihe, ihl, ihu]
    exact ⟨by rintro ⟨⟨⟨h1, rfl⟩, h2⟩, h3⟩; exact .integral _ _ _ _ _ _ _ h1 h2 h3,
      fun h => by cases h; exact ⟨⟨⟨‹_›, rfl⟩, ‹_›⟩, ‹_›⟩⟩
  | derivative e x a ihe iha =>
    cases u <;> simp only [AST.beq, Bool.false_eq_true, false_iff] <;> try (intro h; cases h)
    simp only [Bool.and_eq_true, beq_iff_eq, ihe, iha]
    exact ⟨by rintro ⟨⟨h1, rfl⟩, h2⟩; exact .derivative _ _ _ _ _ h1 h2, fun h => by cases h; exact ⟨⟨‹_›, rfl⟩, ‹_›⟩⟩
  | equation es ns ih =>
    cases u <;> simp only [AST.beq, Bool.false_eq_true, false_iff] <;> try (intro h; cases h)
    rw [Bool.and_eq_true, beq_iff_eq, beqEqs_iff, forall₂_congr (S := fun a b => Alike (fun a b => FArith.beq a b = true) a.1 b.1 ∧
      Alike (fun a b => FArith.beq a b = true) a.2 b.2) (fun e he b => by rw [(ih e he).1, (ih e he).2]), forall₂_zip]
    refine ⟨?_, fun h => ?_⟩
    · rintro ⟨⟨h1, h2⟩, rfl⟩
      exact .equation _ _ _ h1 (fun p hp => (h2 p hp).1) fun p hp => (h2 p hp).2
    · cases h with
      | equation _ _ _ h1 h2 h3 => exact ⟨⟨h1, fun p hp => ⟨h2 p hp, h3 p hp⟩⟩, rfl⟩


/-! ## Which numbers are compared -/

theorem zip_eq {α : Type} {v w : List α} (hl : v.length = w.length) (h : ∀ p ∈ v.zip w, p.1 = p.2) : v = w := by
  have := (forall₂_zip (R := fun a b : α => a = b)).2 ⟨hl, h⟩
  simpa using this

theorem zip_mem {α β : Type} {v : List α} {w : List β} {p : α × β} (h : p ∈ v.zip w) : p.1 ∈ v ∧ p.2 ∈ w :=
  List.of_mem_zip (a := p.1) (b := p.2) h

omit [FArith F] in
theorem alike_identical {R : F → F → Prop} {N N' : F → Prop} (hN : ∀ a b, N a → N' b → R a b → a = b) {t u : AST F} (h : Alike R t u)
    (ht : Written N t) (hu : Written N' u) : t = u := by
  induction h with
  | scalar a b h =>
    cases ht; cases hu
    rw [hN a b ‹_› ‹_› h]
  | vector v w hl _ ih =>
    cases ht; cases hu
    rename_i hv hw
    rw [zip_eq hl fun p hp => ih p hp (hv _ (zip_mem hp).1) (hw _ (zip_mem hp).2)]
  | matrix v w hl hr _ ih =>
    cases ht; cases hu
    rename_i hv hw
    rw [zip_eq hl fun p hp => zip_eq (hr p hp) fun q hq =>
      ih p hp q hq (hv _ (zip_mem hp).1 _ (zip_mem hq).1) (hw _ (zip_mem hp).2 _ (zip_mem hq).2)]
  | list v w hl _ ih =>
    cases ht; cases hu
    rename_i hv hw
    rw [zip_eq hl fun p hp => ih p hp (hv _ (zip_mem hp).1) (hw _ (zip_mem hp).2)]
  | «variable» n => rfl
  | function n v w hl _ ih =>
    cases ht; cases hu
    rename_i hv hw
    rw [zip_eq hl fun p hp => ih p hp (hv _ (zip_mem hp).1) (hw _ (zip_mem hp).2)]
  | simple op l r l' r' _ _ ih1 ih2 =>
    cases ht; cases hu
    rw [ih1 ‹_› ‹_›, ih2 ‹_› ‹_›]
  | integral e x l u e' l' u' _ _ _ ih1 ih2 ih3 =>
    cases ht with
    | integral _ _ _ _ t1 t2 t3 =>
      cases hu with
      | integral _ _ _ _ u1 u2 u3 => rw [ih1 t1 u1, ih2 t2 u2, ih3 t3 u3]
  | derivative e x a e' a' _ _ ih1 ih2 =>
    cases ht with
    | derivative _ _ _ t1 t2 =>
      cases hu with
      | derivative _ _ _ u1 u2 => rw [ih1 t1 u1, ih2 t2 u2]
  | equation v w ns hl _ _ ih1 ih2 =>
    cases ht with
    | equation _ _ t1 t2 =>
      cases hu with
      | equation _ _ u1 u2 =>
        rw [zip_eq hl fun p hp => Prod.ext (ih1 p hp (t1 _ (zip_mem hp).1) (u1 _ (zip_mem hp).2))
          (ih2 p hp (t2 _ (zip_mem hp).1) (u2 _ (zip_mem hp).2))]

theorem zip_self {α : Type} {v : List α} {p : α × α} (h : p ∈ v.zip v) : ∃ a ∈ v, p = (a, a) := by
  rw [List.zip_eq_zipWith, List.zipWith_self] at h
  obtain ⟨a, ha, rfl⟩ := List.mem_map.1 h
  exact ⟨a, ha, rfl⟩

theorem mem_zip_self {α : Type} {v : List α} {a : α} (h : a ∈ v) : (a, a) ∈ v.zip v := by
  rw [List.zip_eq_zipWith, List.zipWith_self]
  exact List.mem_map.2 ⟨a, h, rfl⟩

omit [FArith F] in
theorem alike_self (R : F → F → Prop) (t : AST F) : Alike R t t ↔ Written (fun a => R a a) t := by
  induction t using AST.ind with
  | scalar s => exact ⟨fun h => by cases h; exact .scalar _ ‹_›, fun h => by cases h; exact .scalar _ _ ‹_›⟩
  | vector v ih =>
    constructor
    · intro h; cases h with
      | vector _ _ _ h => exact .vector _ fun a ha => (ih a ha).1 (h _ (mem_zip_self ha))
    · intro h; cases h with
      | vector _ h =>
        refine .vector _ _ rfl fun p hp => ?_
        obtain ⟨a, ha, rfl⟩ := zip_self hp
        exact (ih a ha).2 (h a ha)
  | matrix v ih =>
    constructor
    · intro h; cases h with
      | matrix _ _ _ _ h => exact .matrix _ fun r hr a ha => (ih r hr a ha).1 (h _ (mem_zip_self hr) _ (mem_zip_self ha))
    · intro h; cases h with
      | matrix _ h =>
        refine .matrix _ _ rfl (fun p hp => ?_) fun p hp q hq => ?_
        · obtain ⟨a, ha, rfl⟩ := zip_self hp
          rfl
        · obtain ⟨r, hr, rfl⟩ := zip_self hp
          obtain ⟨a, ha, rfl⟩ := zip_self hq
          exact (ih r hr a ha).2 (h r hr a ha)
  | list v ih =>
    constructor
    · intro h; cases h with
      | list _ _ _ h => exact .list _ fun a ha => (ih a ha).1 (h _ (mem_zip_self ha))
    · intro h; cases h with
      | list _ h =>
        refine .list _ _ rfl fun p hp => ?_
        obtain ⟨a, ha, rfl⟩ := zip_self hp
        exact (ih a ha).2 (h a ha)
  | var n => exact ⟨fun _ => .variable _, fun _ => .variable _⟩
  | function n v ih =>
    constructor
    · intro h; cases h with
      | function _ _ _ _ h => exact .function _ _ fun a ha => (ih a ha).1 (h _ (mem_zip_self ha))
    · intro h; cases h with
      | function _ _ h =>
        refine .function _ _ _ rfl fun p hp => ?_
        obtain ⟨a, ha, rfl⟩ := zip_self hp
        exact (ih a ha).2 (h a ha)
  | simple op l r ihl ihr =>
    exact ⟨fun h => by cases h; exact .simple _ _ _ (ihl.1 ‹_›) (ihr.1 ‹_›), fun h => by cases h; exact .simple _ _ _ _ _ (ihl.2 ‹_›) (ihr.2 ‹_›)⟩
  | integral e x l u ihe ihl ihu =>
    constructor
    · intro h; cases h with
      | integral _ _ _ _ _ _ _ h1 h2 h3 => exact .integral _ _ _ _ (ihe.1 h1) (ihl.1 h2) (ihu.1 h3)
    · intro h; cases h with
      | integral _ _ _ _ h1 h2 h3 => exact .integral _ _ _ _ _ _ _ (ihe.2 h1) (ihl.2 h2) (ihu.2 h3)
  | derivative e x a ihe iha =>
    constructor
    · intro h; cases h with
      | derivative _ _ _ _ _ h1 h2 => exact .derivative _ _ _ (ihe.1 h1) (iha.1 h2)
    · intro h; cases h with
      | derivative _ _ _ h1 h2 => exact .derivative _ _ _ _ _ (ihe.2 h1) (iha.2 h2)
  | equation es ns ih =>
    constructor
    · intro h; cases h with
      | equation _ _ _ _ h1 h2 =>
        exact .equation _ _ (fun e he => (ih e he).1.1 (h1 _ (mem_zip_self he))) fun e he => (ih e he).2.1 (h2 _ (mem_zip_self he))
    · intro h; cases h with
      | equation _ _ h1 h2 =>
        refine .equation _ _ _ rfl (fun p hp => ?_) fun p hp => ?_
        · obtain ⟨a, ha, rfl⟩ := zip_self hp
          exact (ih a ha).1.2 (h1 a ha)
        · obtain ⟨a, ha, rfl⟩ := zip_self hp
          exact (ih a ha).2.2 (h2 a ha)

omit [FArith F] in
theorem written_mono {N N' : F → Prop} (h : ∀ a, N a → N' a) {t : AST F} (ht : Written N t) : Written N' t := by
  induction ht with
  | scalar a ha => exact .scalar a (h a ha)
  | vector v _ ih => exact .vector v ih
  | matrix m _ ih => exact .matrix m ih
  | list l _ ih => exact .list l ih
  | «variable» n => exact .variable n
  | function n l _ ih => exact .function n l ih
  | simple op l r _ _ ih1 ih2 => exact .simple op l r ih1 ih2
  | integral e x l u _ _ _ ih1 ih2 ih3 => exact .integral e x l u ih1 ih2 ih3
  | derivative e x a _ _ ih1 ih2 => exact .derivative e x a ih1 ih2
  | equation es ns _ _ ih1 ih2 => exact .equation es ns ih1 ih2

omit [FArith F] in
theorem alike_symm {R : F → F → Prop} (hR : ∀ a b, R a b → R b a) {t u : AST F} (h : Alike R t u) : Alike R u t := by
  have swap : ∀ {α : Type} {v w : List α} {p : α × α}, p ∈ w.zip v → (p.2, p.1) ∈ v.zip w := by
    intro α v w p hp
    rw [← List.zip_swap]
    exact List.mem_map.2 ⟨p, hp, rfl⟩
  induction h with
  | scalar a b h => exact .scalar _ _ (hR _ _ h)
  | vector v w hl _ ih => exact .vector _ _ hl.symm fun p hp => ih _ (swap hp)
  | matrix v w hl hr _ ih =>
    exact .matrix _ _ hl.symm (fun p hp => (hr _ (swap hp)).symm) fun p hp q hq => ih _ (swap hp) _ (swap hq)
  | list v w hl _ ih => exact .list _ _ hl.symm fun p hp => ih _ (swap hp)
  | «variable» n => exact .variable n
  | function n v w hl _ ih => exact .function n _ _ hl.symm fun p hp => ih _ (swap hp)
  | simple op l r l' r' _ _ ih1 ih2 => exact .simple _ _ _ _ _ ih1 ih2
  | integral e x l u e' l' u' _ _ _ ih1 ih2 ih3 => exact .integral _ _ _ _ _ _ _ ih1 ih2 ih3
  | derivative e x a e' a' _ _ ih1 ih2 => exact .derivative _ _ _ _ _ ih1 ih2
  | equation v w ns hl _ _ ih1 ih2 => exact .equation _ _ _ hl.symm (fun p hp => ih1 _ (swap hp)) fun p hp => ih2 _ (swap hp)

theorem forall₂_trans {α : Type} {R : α → α → Prop} {v w x : List α} (h : ∀ a ∈ v, ∀ b c, R a b → R b c → R a c)
    (h1 : List.Forall₂ R v w) (h2 : List.Forall₂ R w x) : List.Forall₂ R v x := by
  induction h1 generalizing x with
  | nil => cases h2; exact .nil
  | cons hab _ ih =>
    cases h2 with
    | cons hbc h2 => exact .cons (h _ (by simp) _ _ hab hbc) (ih (fun a ha => h a (by simp [ha])) h2)

theorem beq_trans' (hR : ∀ a b c : F, FArith.beq a b = true → FArith.beq b c = true → FArith.beq a c = true) (t u w : AST F)
    (h1 : t.beq u = true) (h2 : u.beq w = true) : t.beq w = true := by
  induction t using AST.ind generalizing u w with
  | scalar s =>
    cases u <;> simp only [AST.beq, Bool.false_eq_true] at h1
    cases w <;> simp only [AST.beq, Bool.false_eq_true] at h2
    rw [AST.beq]
    exact hR _ _ _ h1 h2
  | vector v ih =>
    cases u <;> simp only [AST.beq, Bool.false_eq_true] at h1
    cases w <;> simp only [AST.beq, Bool.false_eq_true] at h2
    simp only [AST.beq, beqAll_iff] at *
    exact forall₂_trans (fun a ha b c => ih a ha b c) h1 h2
  | matrix v ih =>
    cases u <;> simp only [AST.beq, Bool.false_eq_true] at h1
    cases w <;> simp only [AST.beq, Bool.false_eq_true] at h2
    simp only [AST.beq, beqAllRows_iff] at *
    exact forall₂_trans (fun r hr b c => forall₂_trans fun a ha b c => ih r hr a ha b c) h1 h2
  | list v ih =>
    cases u <;> simp only [AST.beq, Bool.false_eq_true] at h1
    cases w <;> simp only [AST.beq, Bool.false_eq_true] at h2
    simp only [AST.beq, beqAll_iff] at *
    exact forall₂_trans (fun a ha b c => ih a ha b c) h1 h2
  | var n =>
    cases u <;> simp only [AST.beq, Bool.false_eq_true] at h1
    cases w <;> simp only [AST.beq, Bool.false_eq_true] at h2
    simp only [AST.beq, beq_iff_eq] at *
    exact h1.trans h2
  | function n v ih =>
    cases u <;> simp only [AST.beq, Bool.false_eq_true] at h1
    cases w <;> simp only [AST.beq, Bool.false_eq_true] at h2
    simp only [AST.beq, Bool.and_eq_true, beq_iff_eq, beqAll_iff] at *
    exact ⟨h1.1.trans h2.1, forall₂_trans (fun a ha b c => ih a ha b c) h1.2 h2.2⟩
  | simple op l r ihl ihr =>
    cases u <;> simp only [AST.beq, Bool.false_eq_true] at h1
    cases w <;> simp only [AST.beq, Bool.false_eq_true] at h2
    simp only [AST.beq, Bool.and_eq_true, beq_iff_eq] at *
    exact ⟨⟨h1.1.1.trans h2.1.1, ihl _ _ h1.1.2 h2.1.2⟩, ihr _ _ h1.2 h2.2⟩
  | integral e x l u' ihe ihl ihu =>
    cases u <;> simp only [AST.beq, Bool.false_eq_true] at h1
    cases w <;> simp only [AST.beq, Bool.false_eq_true] at h2
    simp only [AST.beq, Bool.and_eq_true, beq_iff_eq] at *
    exact ⟨⟨⟨ihe _ _ h1.1.1.1 h2.1.1.1, h1.1.1.2.trans h2.1.1.2⟩, ihl _ _ h1.1.2 h2.1.2⟩, ihu _ _ h1.2 h2.2⟩
  | derivative e x a ihe iha =>
    cases u <;> simp only [AST.beq, Bool.false_eq_true] at h1
    cases w <;> simp only [AST.beq, Bool.false_eq_true] at h2
    simp only [AST.beq, Bool.and_eq_true, beq_iff_eq] at *
    exact ⟨⟨ihe _ _ h1.1.1 h2.1.1, h1.1.2.trans h2.1.2⟩, iha _ _ h1.2 h2.2⟩
  | equation es ns ih =>
    cases u <;> simp only [AST.beq, Bool.false_eq_true] at h1
    cases w <;> simp only [AST.beq, Bool.false_eq_true] at h2
    simp only [AST.beq, Bool.and_eq_true, beq_iff_eq, beqEqs_iff] at *
    exact ⟨forall₂_trans (R := fun a b : AST F × AST F => a.1.beq b.1 = true ∧ a.2.beq b.2 = true)
      (fun a ha b c hab hbc => ⟨(ih a ha).1 _ _ hab.1 hbc.1, (ih a ha).2 _ _ hab.2 hbc.2⟩) h1.1 h2.1, h1.2.trans h2.2⟩

/-- C85: values are compared as the expressions that stand for them. -/
theorem C85_values (v w : Value F) : v.beq w = (AST.fromValue v).beq (AST.fromValue w) := by
  have hl : ∀ a b : List F, Value.beqList a b = beqAll (a.map .scalar) (b.map .scalar) := by
    intro a
    induction a with
    | nil => intro b; cases b <;> simp [Value.beqList, beqAll]
    | cons x a ih => intro b; cases b <;> simp [Value.beqList, beqAll, AST.beq, ih]
  have hm : ∀ a b : List (List F), Value.beqRows a b = beqAllRows (a.map fun i => i.map .scalar) (b.map fun i => i.map .scalar) := by
    intro a
    induction a with
    | nil => intro b; cases b <;> simp [Value.beqRows, beqAllRows]
    | cons x a ih => intro b; cases b <;> simp [Value.beqRows, beqAllRows, hl, ih]
  cases v <;> cases w <;> simp [Value.beq, AST.fromValue, AST.beq, hl, hm]

end

section
variable {F : Type} [FNum F] [Binary64 F]

theorem double_beq_self (a : F) : FArith.beq a a = true ↔ FArith.isNaN a = false := by
  rw [Binary64.bits_beq, Binary64.bits_isNaN]
  show Ext.beq (Binary64.bits a).ext (Binary64.bits a).ext = true ↔ FArith.isNaN (Binary64.bits a).ext = false
  cases (Binary64.bits a).ext <;> simp [Ext.beq, FArith.isNaN]

theorem ext_beq_symm {a b : Ext ℚ} (h : Ext.beq a b = true) : Ext.beq b a = true := by
  cases a <;> cases b <;> simp_all [Ext.beq, Ext.value]

theorem ext_beq_trans {a b c : Ext ℚ} (h : Ext.beq a b = true) (h' : Ext.beq b c = true) : Ext.beq a c = true := by
  cases a <;> cases b <;> cases c <;> simp_all [Ext.beq, Ext.value]

/-- C85: an expression is `==` to itself exactly if no NaN is written in it. -/
theorem C85_reflexive (t : AST F) : t.beq t = true ↔ Written (fun a => FArith.isNaN a = false) t := by
  rw [C85_trees, alike_self]
  simp only [double_beq_self]

/-- C85: equality is symmetric and transitive. -/
theorem C85_equivalence (t u w : AST F) : (t.beq u = true → u.beq t = true) ∧ (t.beq u = true → u.beq w = true → t.beq w = true) := by
  constructor
  · rw [C85_trees, C85_trees]
    refine alike_symm fun a b h => ?_
    rw [Binary64.bits_beq] at h ⊢
    exact ext_beq_symm h
  · refine beq_trans' (fun a b c h h' => ?_) t u w
    rw [Binary64.bits_beq] at h h' ⊢
    exact ext_beq_trans h h'

theorem roundQ_nonneg {x : ℚ} (hx : 0 ≤ x) : (∃ y, F64.roundQ x = .fin y) ∨ F64.roundQ x = .inf false := by
  unfold F64.roundQ
  split
  · exact Or.inl ⟨_, rfl⟩
  · simp only
    split
    · rw [if_neg (not_lt.2 hx)]
      exact Or.inl ⟨_, rfl⟩
    · split
      · rw [decide_eq_false (not_lt.2 hx)]
        exact Or.inr rfl
      · exact Or.inl ⟨_, rfl⟩

/-- A number other than `-0` and NaN (of these, the positive ones can be written). -/
def Plain (a : F) : Prop := (∃ y, (Binary64.bits a).ext = .fin y) ∨ ∃ s, (Binary64.bits a).ext = .inf s

theorem plain_eq {a b : F} (ha : Plain a) (hb : Plain b) (h : FArith.beq a b = true) : a = b := by
  rw [Binary64.bits_beq] at h
  have h : Ext.beq (Binary64.bits a).ext (Binary64.bits b).ext = true := h
  apply bits_ext
  rcases ha with ⟨x, ha⟩ | ⟨x, ha⟩ <;> rcases hb with ⟨y, hb⟩ | ⟨y, hb⟩ <;> rw [ha, hb] at h ⊢ <;> simp_all [Ext.beq, Ext.value]

theorem plain_written (m : Nat) (e : Int) : Plain (FArith.ofDec m e : F) := by
  unfold Plain
  rw [Binary64.bits_ofDec]
  have hq : (0 : ℚ) ≤ (if 0 ≤ e then ((m * 10 ^ e.toNat : Nat) : ℚ) else mkRat m (10 ^ (-e).toNat)) := by
    split
    · positivity
    · rw [Rat.mkRat_eq_div]
      positivity
  rcases roundQ_nonneg hq with ⟨y, h⟩ | h
  · exact Or.inl ⟨y, h⟩
  · exact Or.inr ⟨false, h⟩

theorem plain_zero : Plain (FArith.ofInt 0 : F) := by
  unfold Plain
  rw [Binary64.bits_ofInt]
  exact Or.inl ⟨0, rfl⟩

/-- C85: two expressions that were read from text are `==` exactly if they are identical; in particular each is `==` to itself, and two
that are `==` evaluate alike in every context. -/
theorem C85_parsed [UTable] (cfg : Cfg) (s s' : Str) (t u : AST F) (h : parse cfg s = .ok t) (h' : parse cfg s' = .ok u) :
    t.beq t = true ∧ (t.beq u = true ↔ t = u) := by
  have plain : ∀ a : F, ((∃ (m : Nat) (e : Int), a = FArith.ofDec m e) ∨ a = FArith.ofInt 0) → Plain a := by
    rintro a (⟨m, e, rfl⟩ | rfl)
    · exact plain_written m e
    · exact plain_zero
  have ht := written_mono plain (parsed_numbers cfg s t h)
  have hu := written_mono plain (parsed_numbers cfg s' u h')
  have hself : t.beq t = true := by
    rw [C85_reflexive]
    refine written_mono (fun a ha => ?_) ht
    rw [Binary64.bits_isNaN]
    rcases ha with ⟨y, ha⟩ | ⟨y, ha⟩
    · show FArith.isNaN (Binary64.bits a).ext = false
      rw [ha]
      rfl
    · show FArith.isNaN (Binary64.bits a).ext = false
      rw [ha]
      rfl
  refine ⟨hself, fun he => ?_, fun he => he ▸ hself⟩
  exact alike_identical (fun a b ha hb => plain_eq ha hb) ((C85_trees t u).1 he) ht hu

/-- C85: `==` does not mean that two values can be exchanged: `0` and `-0` are `==`, but `1/x` is positive infinity for one and negative
infinity for the other. -/
theorem C85_zeros : ∃ v w : Value F, v.beq w = true ∧ vDiv (.scalar (FArith.ofInt 1)) v = .ok (.scalar (FArith.inf false)) ∧
    vDiv (.scalar (FArith.ofInt 1)) w = .ok (.scalar (FArith.inf true)) := by
  refine ⟨.scalar (FArith.ofInt 0), .scalar (FArith.neg (FArith.ofInt 0)), ?_, ?_, ?_⟩
  · simp only [Value.beq, Binary64.bits_beq, Binary64.bits_neg, Binary64.bits_ofInt]
    decide +kernel
  · have : FArith.div (FArith.ofInt 1) (FArith.ofInt 0) = (FArith.inf false : F) := by
      apply Binary64.bits_inj
      simp only [Binary64.bits_div, Binary64.bits_inf, Binary64.bits_ofInt]
      decide +kernel
    rw [← this]
    rfl
  · have : FArith.div (FArith.ofInt 1) (FArith.neg (FArith.ofInt 0)) = (FArith.inf true : F) := by
      apply Binary64.bits_inj
      simp only [Binary64.bits_div, Binary64.bits_inf, Binary64.bits_ofInt, Binary64.bits_neg]
      decide +kernel
    rw [← this]
    rfl

end

/-! ## Contexts -/

section
variable {F : Type} [FNum F]

theorem valuesBeq_iff (v w : List (Value F)) : valuesBeq v w = true ↔ v.length = w.length ∧ ∀ p ∈ v.zip w, p.1.beq p.2 = true := by
  rw [← forall₂_zip (R := fun a b : Value F => a.beq b = true)]
  induction v generalizing w with
  | nil => cases w <;> simp [valuesBeq]
  | cons a v ih => cases w <;> simp [valuesBeq, ih]

/-- C85: contexts are `==` exactly if they have the same variables with values that are `==`, and the same functions with parameters and
expressions that are `==`, all in the same order. -/
theorem C85_contexts (c d : Context F) : c.beq d = true ↔
    (c.vars.length = d.vars.length ∧ ∀ p ∈ c.vars.zip d.vars, p.1.name = p.2.name ∧ p.1.values.length = p.2.values.length ∧
      ∀ q ∈ p.1.values.zip p.2.values, q.1.beq q.2 = true) ∧
    (c.funs.length = d.funs.length ∧ ∀ p ∈ c.funs.zip d.funs, p.1.name = p.2.name ∧ p.1.ast.beq p.2.ast = true ∧ p.1.inputs = p.2.inputs) := by
  unfold Context.beq
  simp only [Bool.and_eq_true, beq_iff_eq, List.all_eq_true, Variable.beq, Function.beq, valuesBeq_iff, and_assoc]

/-- C85: the order matters: the same variables defined in another order give a context that is not `==`, though every expression has the
same values in it. -/
theorem C85_order (v w : Variable F) (h : v.name ≠ w.name) :
    ((Context.empty.addVar v).addVar w).beq ((Context.empty.addVar w).addVar v) = false ∧
    ∀ (cfg : Cfg) (n : Nat) (e : AST F), eval cfg n e ((Context.empty.addVar v).addVar w) = eval cfg n e ((Context.empty.addVar w).addVar v) := by
  have e1 : (Context.empty.addVar v).addVar w = (⟨[v, w], []⟩ : Context F) := by
    simp [Context.addVar, Context.empty, h]
  have e2 : (Context.empty.addVar w).addVar v = (⟨[w, v], []⟩ : Context F) := by
    simp [Context.addVar, Context.empty, h.symm]
  rw [e1, e2]
  constructor
  · by_contra hc
    rw [Bool.not_eq_false, C85_contexts] at hc
    exact h (hc.1.2 (v, w) (by simp)).1
  · intro cfg n e
    refine C25_same_meaning cfg n e ?_ ?_ (fun x => ?_) fun f => rfl
    · simp [NoDupVars, h]
    · simp [NoDupVars, h.symm]
    · unfold Context.findVar
      by_cases h1 : v.name = x <;> by_cases h2 : w.name = x
      · exact absurd (h1.trans h2.symm) h
      · simp [h1, h2]
      · simp [h1, h2]
      · simp [h1, h2]

end

/-- Two texts for the same expression, and one for another. -/
example : letI := UTable.ascii
    ∃ t u w : AST Double, parse Cfg.default "2*x".toList = .ok t ∧ parse Cfg.default " 2 * x".toList = .ok u ∧
      parse Cfg.default "2.5*x".toList = .ok w ∧ t.beq u = true ∧ t.beq w = false := by
  letI := UTable.ascii
  have h : ∀ s : Str, stripBlanks s = "2*x".toList → parse Cfg.default s = .ok (.simple .mult (.scalar (FArith.ofDec 2 0 : Double)) (.variable ['x'])) := by
    intro s hs
    have := C09_parse_text (F := Double) Cfg.default (.bin .mult (.num "2".toList none) (.var "x".toList))
      ⟨wf_num (s := "2") (by decide), wf_name (n := "x") (by decide), by decide, by decide, nofun⟩
    unfold parse at this ⊢
    rw [hs]
    exact this
  have h' := C09_parse_text (F := Double) Cfg.default (.bin .mult (.num "2".toList (some "5".toList)) (.var "x".toList))
    ⟨⟨by decide, by intro f hf; cases hf; decide, Or.inl (by decide)⟩, wf_name (n := "x") (by decide), by decide, by decide, nofun⟩
  refine ⟨_, _, _, h "2*x".toList (by decide), h " 2 * x".toList (by decide), h', ?_, ?_⟩
  · exact ((C85_parsed Cfg.default "2*x".toList "2*x".toList _ _ (h _ (by decide)) (h _ (by decide))).1)
  · have hb : FArith.beq (FArith.ofDec 2 0 : Double)
        (FArith.ofDec (digitsVal ("2".toList ++ (some "5".toList).getD [])) (-((some "5".toList).getD []).length)) = false := by decide +kernel
    simp only [Ex.tree, AST.beq]
    rw [hb, Bool.and_false, Bool.false_and]

end MUL
