import Verif.Proofs.Mirror
import Verif.Spec.Sides
import Verif.Props.Newton
/-!
# C106: the order of the sides of an equation

The library subtracts one side of an equation from the other: the textually shorter one from the longer one, or for equal lengths the right one from
the left one. Which one it is does not matter. `Mirror F` (Num/Mirror.lean) are the laws of arithmetic that are needed, about
opposite numbers; exact arithmetic and binary64 have them.
-/

namespace MUL
open Out FArith FElem Spec

section
variable {F : Type} [FNum F]

theorem sameUpToSides_symm {α : Type} {eqs eqs' : List (α × α)} (h : SameUpToSides eqs eqs') : SameUpToSides eqs' eqs :=
  h.flip.imp fun p q hpq => by
    rcases hpq with rfl | rfl
    · exact Or.inl rfl
    · exact Or.inr rfl

variable [Mirror F] {cfg : Cfg}

/-- **C106.** The solutions of equations in one unknown are the same, also in the last bit and in their order, if sides are exchanged, and they
are found within the same number of steps. The number of equations is arbitrary, the sides may be any expressions, also with several values. -/
theorem C106_sides (hprec : cfg.prec ≤ 22) (x : Str) (eqs eqs' : List (AST F × AST F)) (h : SameUpToSides eqs eqs') (ctx : Context F) (n : Nat)
    (vs : List (Value F)) : eval cfg n (.equation eqs [x]) ctx = .ok vs ↔ eval cfg n (.equation eqs' [x]) ctx = .ok vs := by
  have key : ∀ {p q : List (AST F × AST F)}, SameUpToSides p q → eval cfg n (.equation p [x]) ctx = .ok vs → eval cfg n (.equation q [x]) ctx = .ok vs := by
    intro p q hpq hv
    cases n with
    | zero => cases hv
    | succ n =>
      rw [eval, evalRec.eq_def] at hv ⊢
      exact equations_turned hprec hpq hv
  exact ⟨key h, key (sameUpToSides_symm h)⟩

omit [Mirror F] in
private theorem solve_is (n : Nat) (eqs : List (AST F × AST F)) (ctx : Context F) (x : List Str) : solve cfg n eqs ctx x = solveEquations cfg (eval cfg n) eqs ctx x := by
  unfold solve solveEquations
  have hf : ∀ (l : List (AST F × AST F)) acc, l.foldl (fun fe i => fe ++ [AST.simple .sub i.1 i.2]) acc = acc ++ l.map fun i => AST.simple .sub i.1 i.2 := by
    intro l
    induction l with
    | nil => simp
    | cons i l ih => intro acc; simp [ih]
  rw [hf]
  simp only [List.nil_append]
  cases RootFinder.new (eval cfg n) (eqs.map fun i => AST.simple .sub i.1 i.2) ctx x <;> rfl

/-- **C106.** The same for the function `solve`. -/
theorem C106_solve (hprec : cfg.prec ≤ 22) (x : Str) (eqs eqs' : List (AST F × AST F)) (h : SameUpToSides eqs eqs') (ctx : Context F) (n : Nat)
    (vs : List (Value F)) : solve cfg n eqs ctx [x] = .ok vs ↔ solve cfg n eqs' ctx [x] = .ok vs := by
  rw [solve_is, solve_is]
  exact ⟨equations_turned hprec h, equations_turned hprec (sameUpToSides_symm h)⟩

omit [Mirror F] in
/-- The trees of an equation and of the equation with exchanged sides differ in the order of the sides, or not at all. -/
theorem tree_sides (cfg : Cfg) {ls rs ls' rs' : List Ex} (hl : ls.length = rs.length) (hl' : ls'.length = rs'.length)
    (h : SameUpToSides (ls.zip rs) (ls'.zip rs')) (vars : List Str) :
    ∃ eqs eqs' : List (AST F × AST F), (Ex.eqs ls rs vars).tree cfg = .equation eqs vars ∧ (Ex.eqs ls' rs' vars).tree cfg = .equation eqs' vars ∧
      SameUpToSides eqs eqs' := by
  simp only [Ex.tree]
  refine ⟨_, _, rfl, rfl, ?_⟩
  induction ls generalizing rs ls' rs' with
  | nil =>
    cases rs with
    | cons r rs => cases hl
    | nil =>
      cases ls' with
      | nil =>
        cases rs' with
        | cons r rs => cases hl'
        | nil => exact .nil
      | cons a ls' =>
        cases rs' with
        | nil => cases hl'
        | cons r rs => cases h
  | cons l ls ih =>
    cases rs with
    | nil => cases hl
    | cons r rs =>
      cases ls' with
      | nil => cases h
      | cons l' ls' =>
        cases rs' with
        | nil => cases hl'
        | cons r' rs' =>
          simp only [List.zip_cons_cons] at h
          cases h with
          | cons h1 h2 =>
            simp only [textAll, treeAll, List.zip_cons_cons, List.zipWith_cons_cons]
            refine .cons ?_ (ih (by simpa using hl) (by simpa using hl') h2)
            rcases h1 with h1 | h1 <;> cases h1
            · exact Or.inl rfl
            · split <;> split <;> first | exact Or.inl rfl | exact Or.inr rfl

/-- **C106.** From the texts: `eq(l=r,…,x)` and the same text with some of the equations turned around have the same solutions. -/
theorem C106_text [UTable] (hprec : cfg.prec ≤ 22) (x : Str) (ls rs ls' rs' : List Ex) (hwf : (Ex.eqs ls rs [x]).WF) (hwf' : (Ex.eqs ls' rs' [x]).WF)
    (h : SameUpToSides (ls.zip rs) (ls'.zip rs')) (ctx : Context F) (n : Nat) (vs : List (Value F)) :
    quickEval cfg n (Ex.eqs ls rs [x]).text ctx = .ok vs ↔ quickEval cfg n (Ex.eqs ls' rs' [x]).text ctx = .ok vs := by
  obtain ⟨eqs, eqs', h1, h2, h3⟩ := tree_sides (F := F) cfg hwf.1 hwf'.1 h [x]
  have key : ∀ (e : Ex) (q : List (AST F × AST F)), e.WF → e.tree cfg = .equation q [x] →
      (quickEval cfg n e.text ctx = .ok vs ↔ eval cfg n (.equation q [x]) ctx = .ok vs) := by
    intro e q he ht
    unfold quickEval
    rw [C09_parse_text cfg e he, ht]
    show (eval cfg n (.equation q [x]) ctx).mapErr _ = _ ↔ _
    cases eval cfg n (.equation q [x]) ctx <;> simp [Out.mapErr]
  rw [key _ _ hwf h1, key _ _ hwf' h2]
  exact C106_sides hprec x eqs eqs' h3 ctx n vs

/-- **C106.** One equation, whatever the context: `eq(l=r,x)` returns the solutions that `eq(r=l,x)` returns. -/
theorem C106_one [UTable] (hprec : cfg.prec ≤ 22) (x : Str) (l r : Ex) (hwf : (Ex.eqs [l] [r] [x]).WF) (hwf' : (Ex.eqs [r] [l] [x]).WF)
    (ctx : Context F) (vs : List (Value F)) :
    Finishes (fun n => quickEval cfg n (Ex.eqs [l] [r] [x]).text ctx) (.ok vs) ↔
      Finishes (fun n => quickEval cfg n (Ex.eqs [r] [l] [x]).text ctx) (.ok vs) := by
  unfold Finishes
  simp only [C106_text hprec x [l] [r] [r] [l] hwf hwf' (.cons (Or.inr rfl) .nil) ctx]

end

/-! ## Number types -/

/-- **C106** for binary64, whatever the elementary functions are, if `x.powi(2)` is `x*x`. -/
theorem C106_binary64 {F : Type} [FNum F] [Binary64 F] {u : ℝ} [Libm F u] (hu : u ≤ 1 / 2 ^ 20) (hsq : ∀ a : F, powi a 2 = mul a a) {cfg : Cfg}
    (hprec : cfg.prec ≤ 22) (x : Str) (eqs eqs' : List (AST F × AST F)) (h : SameUpToSides eqs eqs') (ctx : Context F) (n : Nat) (vs : List (Value F)) :
    eval cfg n (.equation eqs [x]) ctx = .ok vs ↔ eval cfg n (.equation eqs' [x]) ctx = .ok vs :=
  letI := Mirror.ofBinary64 (F := F) hu hsq
  C106_sides hprec x eqs eqs' h ctx n vs

/-- **C106** in exact arithmetic. -/
theorem C106_exact {cfg : Cfg} (hprec : cfg.prec ≤ 22) (x : Str) (eqs eqs' : List (AST (Ext ℝ) × AST (Ext ℝ))) (h : SameUpToSides eqs eqs')
    (ctx : Context (Ext ℝ)) (n : Nat) (vs : List (Value (Ext ℝ))) :
    eval cfg n (.equation eqs [x]) ctx = .ok vs ↔ eval cfg n (.equation eqs' [x]) ctx = .ok vs :=
  C106_sides hprec x eqs eqs' h ctx n vs

/-! ## Examples -/

/-- `eq(9=x^2,x)`, from what is known about `eq(x^2=9,x)`. -/
example [UTable] : ∃ s t : Ext ℝ, Finishes (fun n => quickEval Cfg.default n "eq(9=x^2,x)".toList (Context.default : Context (Ext ℝ))) (.ok [.scalar s, .scalar t]) ∧
    Finishes (fun n => quickEval Cfg.default n "eq(x^2=9,x)".toList (Context.default : Context (Ext ℝ))) (.ok [.scalar s, .scalar t]) := by
  have hx : (Ex.bin .pow (.var ['x']) (.num ['2'] none)).WF := ⟨wf_name (n := "x") (by decide), wf_num (s := "2") (by decide), by decide, by decide, nofun⟩
  have h9 : (Ex.num ['9'] none).WF := wf_num (s := "9") (by decide)
  have hv : ∀ v ∈ [['x']], NameShape v := by
    intro v hv
    simp only [List.mem_singleton] at hv
    subst hv
    exact nameShape_letters (by decide) (by decide)
  have hwf : (Ex.eqs [.bin .pow (.var ['x']) (.num ['2'] none)] [.num ['9'] none] [['x']]).WF :=
    ⟨rfl, ⟨hx, trivial⟩, ⟨h9, trivial⟩, Or.inl (by simp), by decide, hv⟩
  have hwf' : (Ex.eqs [.num ['9'] none] [.bin .pow (.var ['x']) (.num ['2'] none)] [['x']]).WF :=
    ⟨rfl, ⟨h9, trivial⟩, ⟨hx, trivial⟩, Or.inl (by simp), by decide, hv⟩
  have ht : "eq(x^2=9,x)".toList = (Ex.eqs [.bin .pow (.var ['x']) (.num ['2'] none)] [.num ['9'] none] [['x']]).text := by decide
  have ht' : "eq(9=x^2,x)".toList = (Ex.eqs [.num ['9'] none] [.bin .pow (.var ['x']) (.num ['2'] none)] [['x']]).text := by decide
  rw [ht, ht']
  obtain ⟨s, t, h, -⟩ := C64_quadratic_text (F := Ext ℝ) (cfg := Cfg.default) (ctx := Context.default) (x := ['x'])
    (le := .bin .pow (.var ['x']) (.num ['2'] none)) (re := .num ['9'] none) (g := fun u => u ^ (2 : Int)) (k := fun _ => 9)
    (by decide) (by decide) hwf (by simp) (fun u => denotes_bin (.var _ [.scalar u] (by simp [Env.set])) (denotes_digit '2' 2 ((2 : Int) : ℝ) rfl (by norm_num))
      (.pow (.int u 2 (Or.inl (by norm_num))))) (fun u => denotes_digit '9' 9 9 rfl (by norm_num))
    (C60_constants (F := Ext ℝ) Cfg.default).1 1 (-3) 3 (by intro u; simp only [zpow_ofNat]; ring) (-3 * 10 ^ (Cfg.default.prec - 2)) (3 * 10 ^ (Cfg.default.prec - 2))
    (by push_cast; norm_num) (by push_cast; norm_num) (by norm_num) (by norm_num) (by norm_num) (by norm_num) (by norm_num)
  exact ⟨s, t, (C106_one (by decide) ['x'] _ _ hwf hwf' _ _).1 h, h⟩

/-- In binary64: `x = 1` and `1 = x`, `x*x = 1` and `1 = x*x`, … any context, any expressions. -/
example (l r : AST Double) (ctx : Context Double) (n : Nat) (vs : List (Value Double)) :
    eval Cfg.default n (.equation [(l, r), (r, l)] [['x']]) ctx = .ok vs ↔ eval Cfg.default n (.equation [(r, l), (r, l)] [['x']]) ctx = .ok vs :=
  C106_binary64 (u := 1 / 2 ^ 53) (by norm_num) double_square (by decide) ['x'] _ _ (.cons (Or.inr rfl) (.cons (Or.inl rfl) .nil)) ctx n vs

example (l r : AST Double) (ctx : Context Double) (n : Nat) (vs : List (Value Double)) :
    solve Cfg.default n [(l, r)] ctx [['x']] = .ok vs ↔ solve Cfg.default n [(r, l)] ctx [['x']] = .ok vs :=
  C106_solve (by decide) ['x'] _ _ (.cons (Or.inr rfl) .nil) ctx n vs

example (l r : AST (Ext ℝ)) (ctx : Context (Ext ℝ)) (n : Nat) (vs : List (Value (Ext ℝ))) :
    eval Cfg.default n (.equation [(l, r)] [['x']]) ctx = .ok vs ↔ eval Cfg.default n (.equation [(r, l)] [['x']]) ctx = .ok vs :=
  C106_exact (by decide) ['x'] _ _ (.cons (Or.inr rfl) .nil) ctx n vs

/-- Errors can differ: the missing variable that is met first is reported. -/
example : eval Cfg.default 5 (.equation [(.variable ['y'], .variable ['z'])] [['x']]) (⟨[], []⟩ : Context Q) = .err (.noVariable ['y']) ∧
    eval Cfg.default 5 (.equation [(.variable ['z'], .variable ['y'])] [['x']]) (⟨[], []⟩ : Context Q) = .err (.noVariable ['z']) := ⟨rfl, rfl⟩

end MUL
