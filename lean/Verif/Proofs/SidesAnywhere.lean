import Verif.Spec.SidesAnywhere
import Verif.Props.SameResults
import Verif.Props.Mirror
import Verif.Proofs.RenameText
/-!
# Exchanging sides anywhere, for C106 and C78
-/

set_option linter.unusedSectionVars false

namespace MUL
open Out FArith FElem Spec

section
variable {F : Type} [FNum F] {cfg : Cfg}

theorem SameResults.refl (a : AST F) : SameResults cfg a a := fun _ _ _ => Iff.rfl
theorem SameResults.trans {a b c : AST F} (h : SameResults cfg a b) (h' : SameResults cfg b c) : SameResults cfg a c := fun x n vs => (h x n vs).trans (h' x n vs)

theorem sr_parts {l l' : List (AST F)} (h : List.Forall₂ (SameResults cfg) l l') : List.Forall₂ (Replaced (SameResults cfg) fun _ => False) l l' :=
  h.imp fun _ _ h => .part _ _ h

theorem sr_simple (op : SimpleOp) {l l' r r' : AST F} (h1 : SameResults cfg l l') (h2 : SameResults cfg r r') :
    SameResults cfg (.simple op l r) (.simple op l' r') := C107_results (.simple _ _ _ _ _ (.part _ _ h1) (.part _ _ h2))

theorem sr_transpose {R : AST F → AST F → Prop} {m m' : List (List (AST F))} (h : List.Forall₂ (List.Forall₂ R) m m') (n : Nat) :
    List.Forall₂ (List.Forall₂ R) (transpose n m) (transpose n m') := by
  unfold transpose
  refine List.forall₂_map_left_iff.2 (List.forall₂_map_right_iff.2 (List.forall₂_same.2 fun i _ => ?_))
  induction h with
  | nil => exact .nil
  | @cons r r' m m' hr _ ih =>
    by_cases hi : i < r.length
    · have hi' : i < r'.length := hr.length_eq ▸ hi
      rw [List.filterMap_cons_some (b := r[i]) (by simp [hi]), List.filterMap_cons_some (b := r'[i]) (by simp [hi'])]
      exact .cons (List.Forall₂.get hr hi hi') ih
    · have hi' : ¬ i < r'.length := hr.length_eq ▸ hi
      rw [List.filterMap_cons_none (by simpa using hi), List.filterMap_cons_none (by simpa using hi')]
      exact ih

theorem sr_matrix {m m' : List (List (AST F))} (h : List.Forall₂ (List.Forall₂ (SameResults cfg)) m m') :
    SameResults cfg (.matrix (if cfg.rowMajor then m else transpose (m.headD []).length m))
      (.matrix (if cfg.rowMajor then m' else transpose (m'.headD []).length m')) := by
  have hlen : (m.headD []).length = (m'.headD []).length := by
    cases h with
    | nil => rfl
    | cons hr _ => exact hr.length_eq
  refine C107_results (.matrix _ _ ?_)
  rw [← hlen]
  have : List.Forall₂ (List.Forall₂ (SameResults cfg)) (if cfg.rowMajor then m else transpose (m.headD []).length m)
      (if cfg.rowMajor then m' else transpose (m.headD []).length m') := by
    split
    · exact h
    · exact sr_transpose h _
  exact this.imp fun _ _ h => sr_parts h

/-- The rule for the order of the sides. -/
def sideOrder (l r : Str × AST F) : AST F × AST F := if r.1.length ≤ l.1.length then (l.2, r.2) else (r.2, l.2)

theorem sides_split {R : AST F → AST F → Prop} (A B : List Str) {S S' T T' : List (AST F)} (hS : List.Forall₂ R S S') (hT : List.Forall₂ R T T') :
    List.Forall₂ R ((List.zipWith sideOrder (A.zip S) (B.zip T)).map Prod.fst) ((List.zipWith sideOrder (A.zip S') (B.zip T')).map Prod.fst) ∧
    List.Forall₂ R ((List.zipWith sideOrder (A.zip S) (B.zip T)).map Prod.snd) ((List.zipWith sideOrder (A.zip S') (B.zip T')).map Prod.snd) := by
  induction A generalizing B S S' T T' with
  | nil => exact ⟨.nil, .nil⟩
  | cons a A ih =>
    cases hS with
    | nil => exact ⟨.nil, .nil⟩
    | cons h1 hS =>
      cases B with
      | nil => exact ⟨.nil, .nil⟩
      | cons b B =>
        cases hT with
        | nil => exact ⟨.nil, .nil⟩
        | cons h2 hT =>
          obtain ⟨i1, i2⟩ := ih B hS hT
          simp only [List.zip_cons_cons, List.zipWith_cons_cons, List.map_cons, sideOrder]
          split
          · exact ⟨.cons h1 i1, .cons h2 i2⟩
          · exact ⟨.cons h2 i1, .cons h1 i2⟩

theorem sides_order {A A' B B' : List Str} (hA : A'.length = A.length) (hB : B'.length = B.length) (S T : List (AST F)) :
    SameUpToSides (List.zipWith sideOrder (A.zip S) (B.zip T)) (List.zipWith sideOrder (A'.zip S) (B'.zip T)) := by
  induction A generalizing A' B B' S T with
  | nil =>
    cases A' with
    | nil => exact .nil
    | cons _ _ => simp at hA
  | cons a A ih =>
    cases A' with
    | nil => simp at hA
    | cons a' A' =>
      cases B with
      | nil =>
        cases B' with
        | nil => simpa using .nil
        | cons _ _ => simp at hB
      | cons b B =>
        cases B' with
        | nil => simp at hB
        | cons b' B' =>
          cases S with
          | nil => simpa using .nil
          | cons s S =>
            cases T with
            | nil => simpa using .nil
            | cons t T =>
              simp only [List.zip_cons_cons, List.zipWith_cons_cons]
              refine .cons ?_ (ih (by simpa using hA) (by simpa using hB) S T)
              unfold sideOrder
              split <;> split <;> first | exact Or.inl rfl | exact Or.inr rfl

theorem textAll_length (es : List Ex) : (textAll es).length = es.length := by
  induction es with
  | nil => rfl
  | cons e es ih => simp [textAll, ih]

theorem treeAll_length (es : List Ex) : (treeAll cfg es : List (AST F)).length = es.length := by
  induction es with
  | nil => rfl
  | cons e es ih => simp [treeAll, ih]

variable [Mirror F]

/-- An equation in one unknown: related sides, texts of any length. -/
theorem sr_equation (hp : cfg.prec ≤ 22) (x : Str) {A A' B B' : List Str} (hA : A'.length = A.length) (hB : B'.length = B.length)
    {S S' T T' : List (AST F)} (hS : List.Forall₂ (SameResults cfg) S S') (hT : List.Forall₂ (SameResults cfg) T T') :
    SameResults cfg (.equation (List.zipWith sideOrder (A.zip S) (B.zip T)) [x]) (.equation (List.zipWith sideOrder (A'.zip S') (B'.zip T')) [x]) := by
  obtain ⟨h1, h2⟩ := sides_split A B hS hT
  refine (C107_results (.equation _ _ _ (fun _ _ => id) (sr_parts h1) (sr_parts h2))).trans ?_
  exact fun c n vs => C106_sides hp x _ _ (sides_order hA hB S' T') c n vs

mutual
theorem sr_exchanged (hp : cfg.prec ≤ 22) : ∀ e e' : Ex, SidesExchanged e e' → SameResults cfg (e.tree cfg : AST F) (e'.tree cfg)
  | .num _ _, _, h => by cases h; exact .refl _
  | .var _, _, h => by cases h; exact .refl _
  | .paren e, _, h => by
    cases h with
    | same => exact .refl _
    | paren _ e' h => exact sr_simple _ (sr_exchanged hp e e' h) (.refl _)
  | .fn n op e, _, h => by
    cases h with
    | same => exact .refl _
    | fn _ _ _ e' h => exact sr_simple _ (sr_exchanged hp e e' h) (.refl _)
  | .root a b, _, h => by
    cases h with
    | same => exact .refl _
    | root _ a' _ b' h1 h2 => exact sr_simple _ (sr_exchanged hp a a' h1) (sr_exchanged hp b b' h2)
  | .call n es, _, h => by
    cases h with
    | same => exact .refl _
    | call _ _ es' h => exact C107_results (.function _ _ _ (sr_parts (sr_exchangeds hp es es' h)))
  | .vec es, _, h => by
    cases h with
    | same => exact .refl _
    | vec _ es' h => exact C107_results (.vector _ _ (sr_parts (sr_exchangeds hp es es' h)))
  | .mat rs, _, h => by
    cases h with
    | same => exact .refl _
    | mat _ rs' h => exact sr_matrix (sr_exchangedRows hp rs rs' h)
  | .list es, _, h => by
    cases h with
    | same => exact .refl _
    | list _ es' h => exact C107_results (.list _ _ (sr_parts (sr_exchangeds hp es es' h)))
  | .neg e, _, h => by
    cases h with
    | same => exact .refl _
    | neg _ e' h => exact sr_simple _ (.refl _) (sr_exchanged hp e e' h)
  | .bin op l r, _, h => by
    cases h with
    | same => exact .refl _
    | bin _ _ l' _ r' h1 h2 => exact sr_simple _ (sr_exchanged hp l l' h1) (sr_exchanged hp r r' h2)
  | .integ e x lo hi, _, h => by
    cases h with
    | same => exact .refl _
    | integ _ e' _ _ lo' _ hi' h1 h2 h3 =>
      exact C107_results (.integral _ _ _ _ _ _ _ id (.part _ _ (sr_exchanged hp e e' h1)) (.part _ _ (sr_exchanged hp lo lo' h2))
        (.part _ _ (sr_exchanged hp hi hi' h3)))
  | .deriv e x a, _, h => by
    cases h with
    | same => exact .refl _
    | deriv _ e' _ _ a' h1 h2 =>
      exact C107_results (.derivative _ _ _ _ _ id (.part _ _ (sr_exchanged hp e e' h1)) (.part _ _ (sr_exchanged hp a a' h2)))
  | .eqs ls rs xs, _, h => by
    cases h with
    | same => exact .refl _
    | eqs _ _ ms ns ls' rs' x h1 h2 hl hl' hs =>
      have g1 : ms.length = ls.length := h1.length_eq.symm
      have g2 : ns.length = rs.length := h2.length_eq.symm
      have step : SameResults cfg ((Ex.eqs ls rs [x]).tree cfg : AST F) ((Ex.eqs ms ns [x]).tree cfg) :=
        sr_equation hp x (by rw [textAll_length, textAll_length, g1]) (by rw [textAll_length, textAll_length, g2])
          (sr_exchangeds hp ls ms h1) (sr_exchangeds hp rs ns h2)
      obtain ⟨eqs, eqs', e1, e2, e3⟩ := tree_sides (F := F) cfg (ls := ms) (rs := ns) (ls' := ls') (rs' := rs') (by omega) hl' hs [x]
      refine step.trans ?_
      rw [e1, e2]
      exact fun c n vs => C106_sides hp x _ _ e3 c n vs
theorem sr_exchangeds (hp : cfg.prec ≤ 22) : ∀ es es' : List Ex, List.Forall₂ SidesExchanged es es' →
    List.Forall₂ (SameResults cfg) (treeAll cfg es : List (AST F)) (treeAll cfg es')
  | [], _, h => by cases h; exact .nil
  | e :: es, _, h => by
    cases h with
    | @cons _ e' _ es' h1 h2 => exact .cons (sr_exchanged hp e e' h1) (sr_exchangeds hp es es' h2)
theorem sr_exchangedRows (hp : cfg.prec ≤ 22) : ∀ rs rs' : List (List Ex), List.Forall₂ (List.Forall₂ SidesExchanged) rs rs' →
    List.Forall₂ (List.Forall₂ (SameResults cfg)) (treeRows cfg rs : List (List (AST F))) (treeRows cfg rs')
  | [], _, h => by cases h; exact .nil
  | r :: rs, _, h => by
    cases h with
    | @cons _ r' _ rs' h1 h2 => exact .cons (sr_exchangeds hp r r' h1) (sr_exchangedRows hp rs rs' h2)
end

variable {σ τ : Str → Str}

mutual
theorem sr_rename (hp : cfg.prec ≤ 22) : ∀ e : Ex, OneUnknown e → SameResults cfg (rename σ τ (e.tree cfg) : AST F) ((renameEx σ τ e).tree cfg)
  | .num _ _, _ => .refl _
  | .var _, _ => .refl _
  | .paren e, h => sr_simple _ (sr_rename hp e h) (.refl _)
  | .fn n op e, h => sr_simple _ (sr_rename hp e h) (.refl _)
  | .root a b, h => sr_simple _ (sr_rename hp a h.1) (sr_rename hp b h.2)
  | .call n es, h => C107_results (.function _ _ _ (sr_parts (sr_renames hp es h)))
  | .vec es, h => C107_results (.vector _ _ (sr_parts (sr_renames hp es h)))
  | .mat rs, h => by
    have hm := sr_matrix (sr_renameRows hp rs h)
    simp only [renameEx, Ex.tree, rename] at hm ⊢
    refine Eq.mp ?_ hm
    congr 2
    cases cfg.rowMajor with
    | true => rfl
    | false =>
      simp only [Bool.false_eq_true, ↓reduceIte]
      rw [renameRows_eq, renameRows_eq, transpose_map]
      congr 2
      cases (treeRows cfg rs : List (List (AST F))) with
      | nil => rfl
      | cons r rs => simp
  | .list es, h => C107_results (.list _ _ (sr_parts (sr_renames hp es h)))
  | .neg e, h => sr_simple _ (.refl _) (sr_rename hp e h)
  | .bin op l r, h => sr_simple _ (sr_rename hp l h.1) (sr_rename hp r h.2)
  | .integ e x lo hi, h =>
    C107_results (.integral _ _ _ _ _ _ _ id (.part _ _ (sr_rename hp e h.1)) (.part _ _ (sr_rename hp lo h.2.1)) (.part _ _ (sr_rename hp hi h.2.2)))
  | .deriv e x a, h => C107_results (.derivative _ _ _ _ _ id (.part _ _ (sr_rename hp e h.1)) (.part _ _ (sr_rename hp a h.2)))
  | .eqs ls rs xs, h => by
    obtain ⟨hx, h1, h2⟩ := h
    match xs, hx with
    | [x], _ =>
      have g1 := sr_renames hp ls h1
      have g2 := sr_renames hp rs h2
      have hlen : ∀ es : List Ex, (textAll (renameExs σ τ es)).length = (textAll es).length := by
        intro es
        induction es with
        | nil => rfl
        | cons e es ih => simp [renameExs, textAll, ih]
      have := sr_equation hp (σ x) (hlen ls) (hlen rs) g1 g2
      simp only [renameEx, Ex.tree, rename]
      rw [renameEqs_eq, List.map_zipWith]
      rw [renameAll_eq, renameAll_eq] at this
      refine Eq.mp ?_ this
      congr 2
      generalize textAll ls = A
      generalize textAll rs = B
      generalize (treeAll cfg ls : List (AST F)) = S
      generalize (treeAll cfg rs : List (AST F)) = T
      clear this g1 g2 h1 h2
      induction A generalizing B S T with
      | nil => rfl
      | cons a A ih =>
        cases B with
        | nil => simp
        | cons b B =>
          cases S with
          | nil => simp
          | cons s S =>
            cases T with
            | nil => simp
            | cons t T =>
              simp only [List.map_cons, List.zip_cons_cons, List.zipWith_cons_cons]
              rw [ih]
              congr 1
              unfold sideOrder
              split <;> rfl
theorem sr_renames (hp : cfg.prec ≤ 22) : ∀ es : List Ex, OneUnknowns es →
    List.Forall₂ (SameResults cfg) (renameAll σ τ (treeAll cfg es) : List (AST F)) (treeAll cfg (renameExs σ τ es))
  | [], _ => .nil
  | e :: es, h => .cons (sr_rename hp e h.1) (sr_renames hp es h.2)
theorem sr_renameRows (hp : cfg.prec ≤ 22) : ∀ rs : List (List Ex), OneUnknownRows rs →
    List.Forall₂ (List.Forall₂ (SameResults cfg)) (renameRows σ τ (treeRows cfg rs) : List (List (AST F))) (treeRows cfg (renameExRows σ τ rs))
  | [], _ => .nil
  | r :: rs, h => .cons (sr_renames hp r h.1) (sr_renameRows hp rs h.2)
end

end
end MUL
