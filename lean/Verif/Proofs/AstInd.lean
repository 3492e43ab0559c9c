import Verif.Model.Basetypes
/-!
# Induction over trees, with lists of children
-/

namespace MUL

theorem AST.ind {F : Type} {P : AST F → Prop} (scalar : ∀ s, P (.scalar s))
    (vector : ∀ v, (∀ a ∈ v, P a) → P (.vector v))
    (matrix : ∀ m, (∀ r ∈ m, ∀ a ∈ r, P a) → P (.matrix m))
    (list : ∀ l, (∀ a ∈ l, P a) → P (.list l))
    (var : ∀ n, P (.variable n))
    (function : ∀ n l, (∀ a ∈ l, P a) → P (.function n l))
    (simple : ∀ op l r, P l → P r → P (.simple op l r))
    (integral : ∀ e x l u, P e → P l → P u → P (.integral e x l u))
    (derivative : ∀ e x a, P e → P a → P (.derivative e x a))
    (equation : ∀ es vs, (∀ e ∈ es, P e.1 ∧ P e.2) → P (.equation es vs)) : ∀ b, P b
  | .scalar s => scalar s
  | .vector v => vector v fun a _ => AST.ind scalar vector matrix list var function simple integral derivative equation a
  | .matrix m => matrix m fun r _ a _ => AST.ind scalar vector matrix list var function simple integral derivative equation a
  | .list l => list l fun a _ => AST.ind scalar vector matrix list var function simple integral derivative equation a
  | .variable n => var n
  | .function n l => function n l fun a _ =>
      AST.ind scalar vector matrix list var function simple integral derivative equation a
  | .simple op l r => simple op l r (AST.ind scalar vector matrix list var function simple integral derivative equation l)
      (AST.ind scalar vector matrix list var function simple integral derivative equation r)
  | .integral e x l u => integral e x l u (AST.ind scalar vector matrix list var function simple integral derivative equation e)
      (AST.ind scalar vector matrix list var function simple integral derivative equation l)
      (AST.ind scalar vector matrix list var function simple integral derivative equation u)
  | .derivative e x a => derivative e x a (AST.ind scalar vector matrix list var function simple integral derivative equation e)
      (AST.ind scalar vector matrix list var function simple integral derivative equation a)
  | .equation es vs => equation es vs fun e he =>
      ⟨AST.ind scalar vector matrix list var function simple integral derivative equation e.1,
       AST.ind scalar vector matrix list var function simple integral derivative equation e.2⟩
termination_by b => sizeOf b
decreasing_by
  all_goals simp_wf
  all_goals first
    | omega
    | (rename_i h; have := List.sizeOf_lt_of_mem h; omega)
    | (rename_i hr h; have := List.sizeOf_lt_of_mem h; have := List.sizeOf_lt_of_mem hr; omega)
    | (have := List.sizeOf_lt_of_mem he; have h1 : sizeOf e = 1 + sizeOf e.1 + sizeOf e.2 := by (cases e; simp)
       omega)

end MUL
