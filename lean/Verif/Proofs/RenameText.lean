import Verif.Spec.RenameText
import Verif.Proofs.GrammarScan
import Verif.Proofs.Rename
/-!
# Renaming in texts, for C78
-/

set_option linter.unusedSectionVars false
set_option linter.unusedSimpArgs false

namespace MUL
open Out FArith FElem Spec

variable {σ τ : Str → Str}

theorem commas_len : ∀ {ps qs : List Str}, ps.map List.length = qs.map List.length → (commas ps).length = (commas qs).length := by
  intro ps
  induction ps with
  | nil =>
    intro qs h
    cases qs with
    | nil => rfl
    | cons q qs => simp at h
  | cons p ps ih =>
    intro qs h
    cases qs with
    | nil => simp at h
    | cons q qs =>
      simp only [List.map_cons, List.cons.injEq] at h
      have h2 := ih h.2
      cases ps with
      | nil =>
        cases qs with
        | nil => simpa [commas, List.intercalate] using h.1
        | cons q' qs => simp at h
      | cons p' ps =>
        cases qs with
        | nil => simp at h
        | cons q' qs =>
          have e : ∀ (a b : Str) (l : List Str), commas (a :: b :: l) = a ++ ([','] ++ commas (b :: l)) := by
            intro a b l
            simp [commas, List.intercalate, List.intersperse]
          rw [e, e]
          simp only [List.length_append, h.1, h2]

mutual
theorem text_len (hσ : ∀ n, (σ n).length = n.length) (hτ : ∀ n, (τ n).length = n.length) : ∀ e : Ex, (renameEx σ τ e).text.length = e.text.length
  | .num ip fp => rfl
  | .var n => hσ n
  | .paren e => by
    have := text_len hσ hτ e
    simp only [renameEx, Ex.text, List.length_append, this]
  | .fn n op e => by
    have := text_len hσ hτ e
    simp only [renameEx, Ex.text, List.length_append, this]
  | .root a b => by
    have h1 := text_len hσ hτ a
    have h2 := text_len hσ hτ b
    simp only [renameEx, Ex.text, List.length_append]
    rw [commas_len (qs := [a.text, b.text]) (by simp [h1, h2])]
  | .call n args => by
    have := texts_len hσ hτ args
    simp only [renameEx, Ex.text, List.length_append]
    rw [commas_len this, hτ]
  | .vec es => by
    have := texts_len hσ hτ es
    simp only [renameEx, Ex.text, List.length_append]
    rw [commas_len this]
  | .mat rows => by
    have := rows_len hσ hτ rows
    simp only [renameEx, Ex.text, List.length_append]
    rw [commas_len this]
  | .list es => by
    have := texts_len hσ hτ es
    simp only [renameEx, Ex.text, List.length_append]
    rw [commas_len this]
  | .neg e => by
    have := text_len hσ hτ e
    simp only [renameEx, Ex.text, List.length_append, this]
  | .bin op l r => by
    have h1 := text_len hσ hτ l
    have h2 := text_len hσ hτ r
    simp only [renameEx, Ex.text, List.length_append, h1, h2]
  | .integ e x lo hi => by
    have h1 := text_len hσ hτ e
    have h2 := text_len hσ hτ lo
    have h3 := text_len hσ hτ hi
    simp only [renameEx, Ex.text, List.length_append]
    rw [commas_len (qs := [e.text, x, lo.text, hi.text]) (by simp [h1, h2, h3, hσ])]
  | .deriv e x a => by
    have h1 := text_len hσ hτ e
    have h2 := text_len hσ hτ a
    simp only [renameEx, Ex.text, List.length_append]
    rw [commas_len (qs := [e.text, x, a.text]) (by simp [h1, h2, hσ])]
  | .eqs ls rs vars => by
    have h1 := texts_len hσ hτ ls
    have h2 := texts_len hσ hτ rs
    simp only [renameEx, Ex.text, List.length_append]
    rw [commas_len (qs := List.zipWith (fun l r => l ++ ['='] ++ r) (textAll ls) (textAll rs) ++ vars)]
    have key : ∀ (a b a' b' : List Str), a.map List.length = a'.map List.length → b.map List.length = b'.map List.length →
        (List.zipWith (fun l r => l ++ ['='] ++ r) a b).map List.length = (List.zipWith (fun l r => l ++ ['='] ++ r) a' b').map List.length := by
      intro a
      induction a with
      | nil => intro b a' b' h h'; cases a' with
        | nil => rfl
        | cons _ _ => simp at h
      | cons x a ih =>
        intro b a' b' h h'
        cases a' with
        | nil => simp at h
        | cons x' a' =>
          cases b with
          | nil => cases b' with
            | nil => rfl
            | cons _ _ => simp at h'
          | cons y b =>
            cases b' with
            | nil => simp at h'
            | cons y' b' =>
              simp only [List.map_cons, List.cons.injEq] at h h'
              simp only [List.zipWith_cons_cons, List.map_cons, List.length_append, h.1, h'.1, ih b a' b' h.2 h'.2]
    rw [List.map_append, List.map_append, key _ _ _ _ h1 h2, List.map_map]
    congr 1
    exact List.map_congr_left fun n _ => hσ n
theorem texts_len (hσ : ∀ n, (σ n).length = n.length) (hτ : ∀ n, (τ n).length = n.length) : ∀ es : List Ex,
    (textAll (renameExs σ τ es)).map List.length = (textAll es).map List.length
  | [] => rfl
  | e :: es => by
    simp only [renameExs, textAll, List.map_cons, text_len hσ hτ e, texts_len hσ hτ es]
theorem rows_len (hσ : ∀ n, (σ n).length = n.length) (hτ : ∀ n, (τ n).length = n.length) : ∀ rs : List (List Ex),
    (textRows (renameExRows σ τ rs)).map List.length = (textRows rs).map List.length
  | [] => rfl
  | r :: rs => by
    simp only [renameExRows, textRows, List.map_cons, List.length_append, rows_len hσ hτ rs]
    rw [commas_len (texts_len hσ hτ r)]
end

theorem lens_rename (h : ∀ e : Ex, (renameEx σ τ e).text.length = e.text.length) (es : List Ex) :
    (textAll (renameExs σ τ es)).map List.length = (textAll es).map List.length := by
  induction es with
  | nil => rfl
  | cons e es ih => simp only [renameExs, textAll, List.map_cons, h, ih]

theorem transpose_map {α β : Type} (f : α → β) (n : Nat) (rows : List (List α)) : transpose n (rows.map fun r => r.map f) = (transpose n rows).map fun r => r.map f := by
  unfold transpose
  rw [List.map_map]
  refine List.map_congr_left fun i _ => ?_
  simp only [Function.comp]
  rw [List.filterMap_map, List.map_filterMap]
  congr 1
  funext r
  simp

variable {F : Type} [FNum F]

mutual
theorem tree_rename (cfg : Cfg) : ∀ e : Ex, ((∀ e : Ex, (renameEx σ τ e).text.length = e.text.length) ∨ NoEquation e) →
    ((renameEx σ τ e).tree cfg : AST F) = rename σ τ (e.tree cfg)
  | .num ip fp, _ => rfl
  | .var n, _ => rfl
  | .paren e, h => by
    have := tree_rename cfg e (h.imp_right fun h => h)
    simp only [renameEx, Ex.tree, rename, this]
  | .fn n op e, h => by
    have := tree_rename cfg e (h.imp_right fun h => h)
    simp only [renameEx, Ex.tree, rename, this]
  | .root a b, h => by
    have h1 := tree_rename cfg a (h.imp_right fun h => h.1)
    have h2 := tree_rename cfg b (h.imp_right fun h => h.2)
    simp only [renameEx, Ex.tree, rename, h1, h2]
  | .call n args, h => by
    have := trees_rename cfg args (h.imp_right fun h => h)
    simp only [renameEx, Ex.tree, rename, this]
  | .vec es, h => by
    have := trees_rename cfg es (h.imp_right fun h => h)
    simp only [renameEx, Ex.tree, rename, this]
  | .mat rows, h => by
    have := treeRows_rename cfg rows (h.imp_right fun h => h)
    simp only [renameEx, Ex.tree, rename, this]
    cases cfg.rowMajor with
    | true => rfl
    | false =>
      simp only [Bool.false_eq_true, ↓reduceIte]
      rw [renameRows_eq, renameRows_eq, transpose_map]
      congr 2
      cases (treeRows cfg rows : List (List (AST F))) with
      | nil => rfl
      | cons r rs => simp
  | .list es, h => by
    have := trees_rename cfg es (h.imp_right fun h => h)
    simp only [renameEx, Ex.tree, rename, this]
  | .neg e, h => by
    have := tree_rename cfg e (h.imp_right fun h => h)
    simp only [renameEx, Ex.tree, rename, this]
  | .bin op l r, h => by
    have h1 := tree_rename cfg l (h.imp_right fun h => h.1)
    have h2 := tree_rename cfg r (h.imp_right fun h => h.2)
    simp only [renameEx, Ex.tree, rename, h1, h2]
  | .integ e x lo hi, h => by
    have h1 := tree_rename cfg e (h.imp_right fun h => h.1)
    have h2 := tree_rename cfg lo (h.imp_right fun h => h.2.1)
    have h3 := tree_rename cfg hi (h.imp_right fun h => h.2.2)
    simp only [renameEx, Ex.tree, rename, h1, h2, h3]
  | .deriv e x a, h => by
    have h1 := tree_rename cfg e (h.imp_right fun h => h.1)
    have h2 := tree_rename cfg a (h.imp_right fun h => h.2)
    simp only [renameEx, Ex.tree, rename, h1, h2]
  | .eqs ls rs vars, h => by
    rcases h with hlen | h
    · have h1 := trees_rename cfg ls (.inl hlen)
      have h2 := trees_rename cfg rs (.inl hlen)
      have h3 := lens_rename hlen ls
      have h4 := lens_rename hlen rs
      simp only [renameEx, Ex.tree, rename, h1, h2]
      rw [renameEqs_eq, List.map_zipWith, renameAll_eq, renameAll_eq]
      congr 1
      generalize textAll (renameExs σ τ ls) = A' at h3 ⊢
      generalize textAll ls = A at h3 ⊢
      generalize textAll (renameExs σ τ rs) = B' at h4 ⊢
      generalize textAll rs = B at h4 ⊢
      generalize (treeAll cfg ls : List (AST F)) = S
      generalize (treeAll cfg rs : List (AST F)) = T
      clear h1 h2 hlen
      induction A generalizing A' B B' S T with
      | nil =>
        cases A' with
        | nil => rfl
        | cons _ _ => simp at h3
      | cons a A ih =>
        cases A' with
        | nil => simp at h3
        | cons a' A' =>
          cases B with
          | nil =>
            cases B' with
            | nil => simp
            | cons _ _ => simp at h4
          | cons b B =>
            cases B' with
            | nil => simp at h4
            | cons b' B' =>
              cases S with
              | nil => simp
              | cons s S =>
                cases T with
                | nil => simp
                | cons t T =>
                  simp only [List.map_cons, List.cons.injEq] at h3 h4
                  simp only [List.map_cons, List.zip_cons_cons, List.zipWith_cons_cons]
                  rw [ih A' h3.2 B' B h4.2 S T, h3.1, h4.1]
                  congr 1
                  split <;> rfl
    · exact h.elim
theorem trees_rename (cfg : Cfg) : ∀ es : List Ex, ((∀ e : Ex, (renameEx σ τ e).text.length = e.text.length) ∨ NoEquations es) →
    (treeAll cfg (renameExs σ τ es) : List (AST F)) = renameAll σ τ (treeAll cfg es)
  | [], _ => rfl
  | e :: es, h => by
    simp only [renameExs, treeAll, renameAll, tree_rename cfg e (h.imp_right fun h => h.1), trees_rename cfg es (h.imp_right fun h => h.2)]
theorem treeRows_rename (cfg : Cfg) : ∀ rs : List (List Ex), ((∀ e : Ex, (renameEx σ τ e).text.length = e.text.length) ∨ NoEquationRows rs) →
    (treeRows cfg (renameExRows σ τ rs) : List (List (AST F))) = renameRows σ τ (treeRows cfg rs)
  | [], _ => rfl
  | r :: rs, h => by
    simp only [renameExRows, treeRows, renameRows, trees_rename cfg r (h.imp_right fun h => h.1), treeRows_rename cfg rs (h.imp_right fun h => h.2)]
end

end MUL
