import Verif.Props.SidesAnywhere
import Verif.Props.Borrowed
/-!
# C108: an equation written twice
-/

namespace MUL
open Out FArith FElem Spec

section
variable {F : Type} [FNum F] {cfg : Cfg} {ev : Evaluator F}

omit [FNum F] in
theorem addVars_again (c : Context F) (v : Variable F) : addVars (removeVars (addVars c [v]) [v]) [v] = addVars c [v] := by
  show ((c.addVar v).removeVar v.name).addVar v = c.addVar v
  exact again_addVar c v.name v.values v.values

/-- A step of the search: checking the searched equation again changes nothing. -/
theorem newton_twice (e : AST F) (v : Variable F) (c : Context F) : newton cfg ev [e] [e] [v] c = newton cfg ev [e] [] [v] c := by
  unfold newton
  dsimp only
  rw [addVars_again]
  cases h : evalScalars ev [e] (addVars c [v]) with
  | err _ => rfl
  | panic => rfl
  | timeout => rfl
  | ok fx =>
    dsimp only
    by_cases hs : normSmall cfg fx = true
    · rw [if_pos hs, if_pos hs]
      have h0 : (evalScalars ev [] (addVars c [v]) : Out EvalError (List F)) = .ok [] := rfl
      rw [h0, if_pos hs]
      dsimp only
      split <;> rfl
    · rw [if_neg hs, if_neg hs]

theorem newton_single {e : AST F} {v : Variable F} {c c' : Context F} {cs : List (AST F)} {x' : List (Variable F)}
    (h : newton cfg ev [e] cs [v] c = (.ok (.nextX x'), c')) : ∃ w, x' = [w] := by
  unfold newton at h
  dsimp only at h
  cases h1 : evalScalars ev [e] (addVars c [v]) with
  | ok fx =>
    rw [h1] at h
    dsimp only at h
    split at h
    · split at h
      · cases h
      · cases h
      · cases h
      · split at h
        · cases h
        · split at h <;> cases h
    · cases h2 : jacobiAndGauss cfg ev [e] [v] (removeVars (addVars c [v]) [v]) fx with
      | ok y =>
        rw [h2] at h
        dsimp only at h
        split at h
        · split at h
          · cases h
          · cases h
            have := congrArg List.length (jacobi_names h2).1
            simp only [List.length_map, List.length_singleton] at this
            exact List.length_eq_one_iff.1 this
        · cases h
        · cases h
        · cases h
      | err e => rw [h2] at h; cases h
      | panic => rw [h2] at h; cases h
      | timeout => rw [h2] at h; cases h
  | err e => rw [h1] at h; cases h
  | panic => rw [h1] at h; cases h
  | timeout => rw [h1] at h; cases h

theorem loop1_twice (e : AST F) (k : Nat) (v : Variable F) (c : Context F) : solveLoop1 cfg ev [e] [e] k [v] c = solveLoop1 cfg ev [e] [] k [v] c := by
  induction k generalizing v c with
  | zero => rfl
  | succ k ih =>
    unfold solveLoop1
    rw [newton_twice]
    cases h : newton cfg ev [e] [] [v] c with
    | mk o c' =>
      cases o with
      | ok o =>
        cases o with
        | nextX x' =>
          obtain ⟨w, rfl⟩ := newton_single h
          exact ih w c'
        | finishedX x' => rfl
      | err er => cases er <;> rfl
      | panic => rfl
      | timeout => rfl

theorem loop0_twice (e : AST F) (x : Str) (js : List Int) (c : Context F) (acc : List (Value F)) :
    solveLoop0 cfg ev [e] [e] [x] js c acc = solveLoop0 cfg ev [e] [] [x] js c acc := by
  induction js generalizing c acc with
  | nil => rfl
  | cons j js ih =>
    unfold solveLoop0
    simp only [List.map_cons, List.map_nil]
    rw [loop1_twice]
    simp only [ih]

theorem equation_twice (p : AST F × AST F) (x : Str) (c : Context F) : solveEquations cfg ev [p, p] c [x] = solveEquations cfg ev [p] c [x] := by
  unfold solveEquations RootFinder.new
  simp only [List.map_cons, List.map_nil]
  generalize he : AST.simple SimpleOp.sub p.1 p.2 = e
  have hop : e.isOperation = true := by rw [← he]; rfl
  simp only [List.any_cons, List.any_nil, hop, Bool.not_true, Bool.or_false, Bool.false_eq_true, if_false, List.length_cons, List.length_nil,
    Nat.zero_add, Nat.reduceAdd, OfNat.ofNat_ne_zero, Nat.one_ne_zero, gt_iff_lt, Nat.lt_irrefl, Nat.one_lt_ofNat, if_true]
  by_cases hx : (c.vars.map (·.name)).contains x = true
  · rw [if_pos hx, if_pos hx]
  rw [if_neg hx, if_neg hx, if_neg (by omega)]
  have hi : ∀ l : List (AST F), (idx (e :: l) 0 : Out EvalError (AST F)) = .ok e := fun _ => rfl
  rw [hi, hi, ok_bind, ok_bind]
  simp only [bind_assoc]
  refine _root_.bind_congr fun r => _root_.bind_congr fun v => ?_
  cases v with
  | vector _ => rfl
  | matrix _ => rfl
  | scalar s =>
    rw [ok_bind, ok_bind]
    have hc : generateCombinations (List.range 2) 1 [] = [[0], [1]] := by decide
    have hc1 : (List.range 1) = [0] := rfl
    unfold RootFinder.findRoots
    simp only [hc, hc1]
    have s0 : (splitExprs [0] 0 [] [e, e] : Out EvalError _) = .ok ([e], [e]) := rfl
    have s1 : (splitExprs [1] 0 [] [e, e] : Out EvalError _) = .ok ([e], [e]) := rfl
    have s2 : (splitExprs [0] 0 [] [e] : Out EvalError _) = .ok ([e], []) := rfl
    simp only [findRootsLoop, s0, s1, s2, ok_bind, loop0_twice]
    cases h1 : solveLoop0 cfg ev [e] [] [x] startValues (List.foldl (fun c i => c.removeVar i)
        (List.foldl (fun c i => c.addVar ⟨i, [.scalar (ofDec 821785 (-5))]⟩) c [x]) [x]) [] with
    | ok rs =>
      rw [ok_bind, ok_bind]
      cases h2 : cleanResults cfg rs with
      | ok cl =>
        simp only [ok_bind]
        split
        · rfl
        · rfl
      | _ => rfl
    | _ => rfl

/-- **C108.** Writing an equation in one unknown twice changes nothing: neither the results nor an error. -/
theorem C108_twice (l r : AST F) (x : Str) (c : Context F) (n : Nat) :
    eval cfg n (.equation [(l, r), (l, r)] [x]) c = eval cfg n (.equation [(l, r)] [x]) c := by
  cases n with
  | zero => rfl
  | succ n =>
    simp only [eval, evalRec]
    exact equation_twice (l, r) x c

/-- **C108.** The same for `solve`. -/
theorem C108_solve (l r : AST F) (x : Str) (c : Context F) (n : Nat) : solve cfg n [(l, r), (l, r)] c [x] = solve cfg n [(l, r)] c [x] := by
  have key : ∀ (es : List (AST F × AST F)), solve cfg n es c [x] = solveEquations cfg (eval cfg n) es c [x] := by
    intro es
    unfold solve solveEquations
    have hf : ∀ (l : List (AST F × AST F)) acc, l.foldl (fun fe i => fe ++ [AST.simple .sub i.1 i.2]) acc = acc ++ l.map fun i => AST.simple .sub i.1 i.2 := by
      intro l
      induction l with
      | nil => simp
      | cons i l ih => intro acc; simp [ih]
    rw [hf]
    simp only [List.nil_append]
    cases RootFinder.new (eval cfg n) (es.map fun i => AST.simple .sub i.1 i.2) c [x] <;> rfl
  rw [key, key]
  exact equation_twice (l, r) x c

/-- **C108**, from texts. -/
theorem C108_text [UTable] (l r : Ex) (x : Str) (hw : (Ex.eqs [l] [r] [x]).WF) (hw' : (Ex.eqs [l, l] [r, r] [x]).WF) (c : Context F) (n : Nat) :
    quickEval cfg n (Ex.eqs [l, l] [r, r] [x]).text c = quickEval cfg n (Ex.eqs [l] [r] [x]).text c := by
  unfold quickEval
  rw [C09_parse_text cfg _ hw, C09_parse_text cfg _ hw']
  show (eval cfg n _ c).mapErr _ = (eval cfg n _ c).mapErr _
  congr 1
  simp only [Ex.tree, textAll, treeAll, List.zip_cons_cons, List.zip_nil_right, List.zipWith_cons_cons, List.zipWith_nil_right]
  split
  · exact C108_twice _ _ x c n
  · exact C108_twice _ _ x c n

/-- **C108**, with exchanged sides: `l = r` together with `r = l` has the results of `l = r`. -/
theorem C108_turned [Mirror F] (hp : cfg.prec ≤ 22) (l r : AST F) (x : Str) (c : Context F) (n : Nat) (vs : List (Value F)) :
    eval cfg n (.equation [(l, r), (r, l)] [x]) c = .ok vs ↔ eval cfg n (.equation [(l, r)] [x]) c = .ok vs := by
  rw [← C108_twice l r x c n]
  exact C106_sides hp x _ _ (.cons (Or.inl rfl) (.cons (Or.inr rfl) .nil)) c n vs

end

/-! ## Witnesses -/

/-- `x=3` and `x=3, x=3`, in binary64. -/
example [UTable] (c : Context Double) (n : Nat) :
    quickEval Cfg.default n "eq(x=3,x=3,x)".toList c = quickEval Cfg.default n "eq(x=3,x)".toList c := by
  have h3 : (Ex.num ['3'] none).WF := wf_num (s := "3") (by decide)
  have hx : (Ex.var ['x']).WF := wf_name (n := "x") (by decide)
  have hv : ∀ v ∈ [['x']], NameShape v := by
    intro v hv
    simp only [List.mem_singleton] at hv
    subst hv
    exact nameShape_letters (by decide) (by decide)
  exact C108_text (.var ['x']) (.num ['3'] none) ['x'] ⟨rfl, ⟨hx, trivial⟩, ⟨h3, trivial⟩, Or.inl (by simp), by decide, hv⟩
    ⟨rfl, ⟨hx, hx, trivial⟩, ⟨h3, h3, trivial⟩, Or.inl (by simp), by decide, hv⟩ c n

/-- An error stays the same. -/
example : eval Cfg.default 5 (.equation [(.variable ['y'], .variable ['z']), (.variable ['y'], .variable ['z'])] [['x']]) (⟨[], []⟩ : Context Q) =
    .err (.noVariable ['y']) := (C108_twice _ _ _ _ _).trans rfl

example (l r : AST Double) (c : Context Double) (n : Nat) (vs : List (Value Double)) :
    eval Cfg.default n (.equation [(l, r), (r, l)] [['x']]) c = .ok vs ↔ eval Cfg.default n (.equation [(l, r)] [['x']]) c = .ok vs :=
  C108_turned (by decide) l r _ c n vs

end MUL
