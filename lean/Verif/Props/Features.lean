import Verif.Spec.Features
import Verif.Model.Output
import Verif.Props.ParserBasics
import Verif.Props.Eval
import Verif.Proofs.GrammarParse
import Verif.Proofs.AstInd
import Verif.Props.ReadBack
/-!
# C101: what the crate features change
-/

namespace MUL

open Spec FArith

section
variable {F : Type}

theorem flippedAll_eq (l : List (AST F)) : flippedAll l = l.map flipped := by
  induction l with
  | nil => rfl
  | cons a l ih => simp [flippedAll, ih]

theorem flippedRows_eq (l : List (List (AST F))) : flippedRows l = l.map fun r => r.map flipped := by
  induction l with
  | nil => rfl
  | cons a l ih => simp [flippedRows, ih, flippedAll_eq]

theorem flippedEqs_eq (l : List (AST F × AST F)) : flippedEqs l = l.map fun e => (flipped e.1, flipped e.2) := by
  induction l with
  | nil => rfl
  | cons a l ih => cases a; simp [flippedEqs, ih]

theorem flippedOutcome_eq {ε : Type} (x : Out ε (AST F)) : flippedOutcome x = x >>= fun a => .ok (flipped a) := by
  cases x <;> rfl

theorem mapM_flip {α : Type} (rec : α → Out ParserError (AST F)) (l : List α) :
    l.mapM (fun t => flippedOutcome (rec t)) = l.mapM rec >>= fun r => .ok (r.map flipped) := by
  induction l with
  | nil => rfl
  | cons a l ih =>
    rw [List.mapM_cons, List.mapM_cons, ih]
    cases rec a <;> simp [flippedOutcome]

theorem asRow_flip (l : List (AST F)) : (l.map flipped).mapM asRow = l.mapM asRow >>= fun m => .ok (m.map fun r => r.map flipped) := by
  induction l with
  | nil => rfl
  | cons a l ih =>
    simp only [List.map_cons, List.mapM_cons, ih]
    cases a <;> simp [flipped, asRow, flippedAll_eq]

theorem isVector_flip (a : AST F) : (flipped a).isVector = a.isVector := by cases a <;> rfl
theorem isMatrix_flip (a : AST F) : (flipped a).isMatrix = a.isMatrix := by cases a <;> rfl

theorem filterMap_range {α : Type} (l : List α) : (List.range l.length).filterMap (fun i => l[i]?) = l := by
  induction l with
  | nil => rfl
  | cons a l ih =>
    rw [List.length_cons, List.range_succ_eq_map, List.filterMap_cons_some (b := a) (by rfl), List.filterMap_map]
    congr 1

theorem transpose_transpose {α : Type} {n : Nat} {m : List (List α)} (hm : ∀ r ∈ m, r.length = n) :
    transpose m.length (transpose n m) = m := by
  apply List.ext_getElem?
  intro j
  unfold transpose
  by_cases hj : j < m.length
  · have hr := hm m[j] (List.getElem_mem hj)
    simp only [List.getElem?_map, List.getElem?_range hj, Option.map_some, List.filterMap_map, List.getElem?_eq_getElem hj]
    congr 1
    rw [← hr]
    refine Eq.trans (List.filterMap_congr fun i hi => ?_) (filterMap_range m[j])
    rw [hr, List.mem_range] at hi
    have := (filterMap_col hi m hm).2 j
    simp only [Function.comp_apply, this, List.getElem?_eq_getElem hj, Option.bind_some]
  · rw [List.getElem?_eq_none (by simp only [List.length_map, List.length_range]; omega), List.getElem?_eq_none (by omega)]

theorem head_transpose {α : Type} {n : Nat} (hn : 0 < n) {m : List (List α)} (hm : ∀ r ∈ m, r.length = n) :
    ((transpose n m).headD []).length = m.length := by
  obtain ⟨k, rfl⟩ : ∃ k, n = k + 1 := ⟨n - 1, by omega⟩
  unfold transpose
  rw [List.range_succ_eq_map]
  simpa using (filterMap_col hn m hm).1

end

section
variable {F : Type} [FArith F] [UTable]

/-- Vectors in the outcome are not empty. -/
def VecOk (x : Out ParserError (AST F)) : Prop := ∀ v, x = .ok (.vector v) → v ≠ []

theorem asRow_mem {l : List (AST F)} {m : List (List (AST F))} (h : l.mapM asRow = .ok m) : ∀ r ∈ m, AST.vector r ∈ l := by
  induction l generalizing m with
  | nil => cases h; simp
  | cons a l ih =>
    rw [List.mapM_cons, Out.bind_eq_ok] at h
    obtain ⟨r, h1, h2⟩ := h
    rw [Out.bind_eq_ok] at h2
    obtain ⟨m', h3, h4⟩ := h2
    cases h4
    intro r' hr'
    rcases List.mem_cons.1 hr' with rfl | hr'
    · cases a <;> simp_all [asRow]
    · exact List.mem_cons_of_mem _ (ih h3 r' hr')

theorem mapM_mem {α β ε : Type} {f : α → Out ε β} {l : List α} {m : List β} (h : l.mapM f = .ok m) : ∀ b ∈ m, ∃ a ∈ l, f a = .ok b := by
  induction l generalizing m with
  | nil => cases h; simp
  | cons a l ih =>
    rw [List.mapM_cons, Out.bind_eq_ok] at h
    obtain ⟨r, h1, h2⟩ := h
    rw [Out.bind_eq_ok] at h2
    obtain ⟨m', h3, h4⟩ := h2
    cases h4
    intro b hb
    rcases List.mem_cons.1 hb with rfl | hb
    · exact ⟨a, by simp, h1⟩
    · obtain ⟨a', h5, h6⟩ := ih h3 b hb
      exact ⟨a', by simp [h5], h6⟩

theorem parseValue_flip {cfg cfg' : Cfg} (hc : cfg.rowMajor = false) (hc' : cfg'.rowMajor = true)
    {rec : Str → Out ParserError (AST F)} (hrec : ∀ t, VecOk (rec t)) (s : Str) :
    parseValue cfg' (fun t => flippedOutcome (rec t)) s = flippedOutcome (parseValue cfg rec s) := by
  unfold parseValue
  split
  · cases (parseF64 s : Option F) <;> rfl
  split
  swap
  · rfl
  simp only [flippedOutcome_eq, bind_assoc]
  refine _root_.bind_congr fun c0 => ?_
  split
  · rfl
  simp only [bind_assoc]
  refine _root_.bind_congr fun cl => ?_
  split
  · rfl
  simp only [bind_assoc]
  refine _root_.bind_congr fun inner => ?_
  refine _root_.bind_congr fun a0 => ?_
  split
  · rfl
  unfold parseAll
  have := mapM_flip rec (getArgs inner)
  simp only [flippedOutcome_eq] at this
  rw [this]
  simp only [bind_assoc, Out.ok_bind]
  cases hv : List.mapM rec (getArgs inner) with
  | err e => rfl
  | panic => rfl
  | timeout => rfl
  | ok v =>
    simp only [Out.ok_bind, List.any_map]
    have e1 : v.any (AST.isVector ∘ flipped) = v.any AST.isVector := by congr 1; funext a; exact isVector_flip a
    have e2 : v.any (AST.isMatrix ∘ flipped) = v.any AST.isMatrix := by congr 1; funext a; exact isMatrix_flip a
    rw [e1, e2]
    split
    · simp [flipped, flippedAll_eq]
    split
    swap
    · rfl
    rw [asRow_flip]
    simp only [bind_assoc, Out.ok_bind]
    cases hm : v.mapM asRow with
    | err e => rfl
    | panic => rfl
    | timeout => rfl
    | ok m =>
      simp only [Out.ok_bind]
      cases m with
      | nil => rfl
      | cons r0 m =>
        have i1 : (idx (r0 :: m) 0 : Out ParserError (List (AST F))) = .ok r0 := rfl
        have i2 : (idx ((r0 :: m).map fun r => r.map flipped) 0 : Out ParserError (List (AST F))) = .ok (r0.map flipped) := rfl
        rw [i1, i2]
        simp only [Out.ok_bind, List.any_map]
        have e3 : (r0 :: m).any ((fun r => r.length != (r0.map flipped).length) ∘ fun r => r.map flipped) =
            (r0 :: m).any fun r => r.length != r0.length := by
          congr 1
          funext r
          simp
        rw [e3]
        split
        · rfl
        · rename_i hrect
          have hlen : ∀ r ∈ r0 :: m, r.length = r0.length := by
            intro r hr
            by_contra hne
            exact hrect (List.any_eq_true.2 ⟨r, hr, by simpa using hne⟩)
          have hpos : 0 < r0.length := by
            obtain ⟨t, -, ht⟩ := mapM_mem hv _ (asRow_mem hm r0 (by simp))
            exact List.length_pos_iff.2 (hrec t _ ht)
          rw [if_neg (by simp [hc]), colMatrix_eq _ _ (by simp) hlen]
          simp only [Out.ok_bind, flipped, flippedRows_eq]
          rw [← transpose_map]
          have hlen' : ∀ r ∈ (r0 :: m).map (fun r => r.map flipped), r.length = r0.length := by
            intro r hr
            obtain ⟨r', hr', rfl⟩ := List.mem_map.1 hr
            simpa using hlen r' hr'
          rw [head_transpose hpos hlen', transpose_transpose hlen']

theorem parseEqEntry_flip (rec : Str → Out ParserError (AST F)) (s : Str) :
    parseEqEntry (fun t => flippedOutcome (rec t)) s =
      parseEqEntry rec s >>= fun x => .ok (x.map (fun e => (flipped e.1, flipped e.2)) id) := by
  unfold parseEqEntry
  split
  · rfl
  · simp only [flippedOutcome_eq]
    split <;> simp only [bind_assoc, Out.ok_bind] <;> rfl

theorem mapM_eq_flip (rec : Str → Out ParserError (AST F)) (l : List Str) :
    l.mapM (parseEqEntry fun t => flippedOutcome (rec t)) =
      l.mapM (parseEqEntry rec) >>= fun xs => .ok (xs.map fun x => x.map (fun e => (flipped e.1, flipped e.2)) id) := by
  induction l with
  | nil => rfl
  | cons a l ih =>
    simp only [List.mapM_cons, ih, parseEqEntry_flip]
    cases parseEqEntry rec a <;> simp

theorem getLeft_flip (xs : List (Sum (AST F × AST F) Str)) :
    (xs.map fun x => x.map (fun e : AST F × AST F => (flipped e.1, flipped e.2)) (id : Str → Str)).filterMap Sum.getLeft? =
      flippedEqs (xs.filterMap Sum.getLeft?) := by
  rw [flippedEqs_eq]
  induction xs with
  | nil => rfl
  | cons x xs ih =>
    rw [List.map_cons, List.filterMap_cons, List.filterMap_cons, ih]
    cases x <;> rfl

theorem getRight_flip (xs : List (Sum (AST F × AST F) Str)) :
    (xs.map fun x => x.map (fun e : AST F × AST F => (flipped e.1, flipped e.2)) (id : Str → Str)).filterMap Sum.getRight? =
      xs.filterMap Sum.getRight? := by
  induction xs with
  | nil => rfl
  | cons x xs ih =>
    rw [List.map_cons, List.filterMap_cons, List.filterMap_cons, ih]
    cases x <;> rfl

theorem parseAdvanced_flip (rec : Str → Out ParserError (AST F)) (s : Str) :
    parseAdvanced (fun t => flippedOutcome (rec t)) s = (parseAdvanced rec s).map flippedOutcome := by
  unfold parseAdvanced
  split
  · simp only [flippedOutcome_eq, Option.map_some, Option.some.injEq, bind_assoc]
    refine _root_.bind_congr fun inner => ?_
    split
    · rfl
    · simp only [bind_assoc, Out.ok_bind, flipped]
  split
  · simp only [flippedOutcome_eq, Option.map_some, Option.some.injEq, bind_assoc]
    refine _root_.bind_congr fun inner => ?_
    split
    · rfl
    · simp only [bind_assoc, Out.ok_bind, flipped]
  split
  · simp only [mapM_eq_flip]
    simp only [flippedOutcome_eq, Option.map_some, Option.some.injEq, bind_assoc, Out.ok_bind, flipped, getLeft_flip, getRight_flip]
  · rfl

theorem parseFunction_flip (rec : Str → Out ParserError (AST F)) (s : Str) :
    parseFunction (fun t => flippedOutcome (rec t)) s = (parseFunction rec s).map flippedOutcome := by
  unfold parseFunction
  split
  · rfl
  · simp only [flippedOutcome_eq, Option.map_some, Option.some.injEq]
    split
    · simp only [bind_assoc]
      refine _root_.bind_congr fun inner => ?_
      split
      · rfl
      · simp only [bind_assoc, Out.ok_bind, flipped]
    · simp only [bind_assoc, Out.ok_bind, flipped]

theorem parseAtom_flip {cfg cfg' : Cfg} (hc : cfg.rowMajor = false) (hc' : cfg'.rowMajor = true)
    {rec : Str → Out ParserError (AST F)} (hrec : ∀ t, VecOk (rec t)) (s : Str) :
    parseAtom cfg' (fun t => flippedOutcome (rec t)) s = flippedOutcome (parseAtom cfg rec s) := by
  unfold parseAtom parseAll
  simp only [mapM_flip, parseValue_flip hc hc' hrec]
  simp only [flippedOutcome_eq, bind_assoc]
  refine _root_.bind_congr fun c0 => ?_
  refine _root_.bind_congr fun cl => ?_
  split
  · simp only [bind_assoc, Out.ok_bind]
    refine _root_.bind_congr fun inner => ?_
    refine _root_.bind_congr fun args => ?_
    refine _root_.bind_congr fun b => ?_
    split
    · rfl
    · simp [flipped, flippedAll_eq]
  split
  · simp only [bind_assoc, Out.ok_bind]
    refine _root_.bind_congr fun b => ?_
    split <;> rfl
  split
  · simp only [bind_assoc, Out.ok_bind, flipped, flippedAll_eq]
  · rfl

theorem parseStep_flip {cfg cfg' : Cfg} (hc : cfg.rowMajor = false) (hc' : cfg'.rowMajor = true)
    {rec : Str → Out ParserError (AST F)} (hrec : ∀ t, VecOk (rec t)) (s : Str) :
    parseStep cfg' (fun t => flippedOutcome (rec t)) s = flippedOutcome (parseStep cfg rec s) := by
  unfold parseStep
  split
  · rfl
  simp only
  split
  · rfl
  split
  · rfl
  rw [flippedOutcome_eq]
  simp only [bind_assoc]
  refine _root_.bind_congr fun c0 => ?_
  refine _root_.bind_congr fun cl => ?_
  split
  · simp only [flippedOutcome_eq, bind_assoc, Out.ok_bind, flipped]
  · cases splitOp s with
    | some i =>
      simp only [flippedOutcome_eq, bind_assoc, Out.ok_bind]
      refine _root_.bind_congr fun l => ?_
      refine _root_.bind_congr fun r => ?_
      refine _root_.bind_congr fun rv => ?_
      split
      · simp only [Out.ok_bind, flipped]
      · simp only [bind_assoc, Out.ok_bind, flipped]
    | none =>
      simp only [parseFunction_flip]
      cases parseFunction rec s with
      | some r => simp [flippedOutcome_eq]
      | none =>
        simp only [Option.map_none, parseAdvanced_flip]
        cases parseAdvanced rec s with
        | some r => simp [flippedOutcome_eq]
        | none => 
          simp only [Option.map_none]
          rw [parseAtom_flip hc hc' hrec, flippedOutcome_eq]

theorem parseFuel_wf (cfg : Cfg) : ∀ (n : Nat) (s : Str), Out.Post False (WFTree NameOk) (parseFuel cfg n s : Out ParserError (AST F))
  | 0, _ => trivial
  | n + 1, s => parseStep_post (parseFuel_wf cfg n) fun h => h.elim

/-- **C101**: with the feature `row-major` every text is read as without it, with every matrix literal transposed;
texts that cannot be read are refused with the same error (or panic) by both. -/
theorem C101_orientation {cfg cfg' : Cfg} (hc : cfg.rowMajor = false) (hc' : cfg'.rowMajor = true) (s : Str) :
    (parse cfg' s : Out ParserError (AST F)) = flippedOutcome (parse cfg s) := by
  unfold parse parseInner
  generalize (stripBlanks s).length + 1 = n
  generalize stripBlanks s = s
  induction n generalizing s with
  | zero => rfl
  | succ n ih =>
    have : (parseFuel cfg' n : Str → Out ParserError (AST F)) = fun t => flippedOutcome (parseFuel cfg n t) := funext ih
    rw [parseFuel, parseFuel, this]
    refine parseStep_flip hc hc' (fun t v hv => ?_) s
    have := (parseFuel_wf cfg n t).of_ok hv
    cases this
    assumption


omit [FArith F] [UTable] in
/-- **C101**: a tree without matrix literals is its own transposed tree, so the text it comes from means the same in
every build. -/
theorem C101_no_matrix (a : AST F) (h : MatrixFree a) : flipped a = a := by
  have hall : ∀ l : List (AST F), (∀ a ∈ l, flipped a = a) → l.map flipped = l := fun l hl =>
    (List.map_congr_left hl).trans (List.map_id' l)
  induction h with
  | scalar s => rfl
  | vector v _ ih => rw [flipped, flippedAll_eq, hall v ih]
  | list v _ ih => rw [flipped, flippedAll_eq, hall v ih]
  | «variable» n => rfl
  | function n v _ ih => rw [flipped, flippedAll_eq, hall v ih]
  | simple op l r _ _ ih1 ih2 => rw [flipped, ih1, ih2]
  | integral e x l u _ _ _ ih1 ih2 ih3 => rw [flipped, ih1, ih2, ih3]
  | derivative e x a _ _ ih1 ih2 => rw [flipped, ih1, ih2]
  | equation es vs _ _ ih1 ih2 =>
    rw [flipped, flippedEqs_eq]
    congr 1
    refine (List.map_congr_left fun e he => ?_).trans (List.map_id' es)
    rw [ih1 e he, ih2 e he]

/-- **C101**: how a text is read depends on the features only through `row-major`; `high-prec` plays no part. -/
theorem C101_parse_precision {cfg cfg' : Cfg} (hc : cfg.rowMajor = cfg'.rowMajor) (s : Str) :
    (parse cfg' s : Out ParserError (AST F)) = parse cfg s := by
  have e1 : ∀ (rec : Str → Out ParserError (AST F)) (s : Str), parseStep cfg' rec s = parseStep cfg rec s := by
    intro rec s
    unfold parseStep parseAtom parseValue
    rw [hc]
  unfold parse parseInner
  generalize (stripBlanks s).length + 1 = n
  generalize stripBlanks s = s
  induction n generalizing s with
  | zero => rfl
  | succ n ih => rw [parseFuel, parseFuel, show (parseFuel cfg' n : Str → Out ParserError (AST F)) = parseFuel cfg n from funext ih, e1]

/-- **C101**: a text without an opening bracket is read in the same way whatever the features are. -/
theorem C101_no_bracket (cfg cfg' : Cfg) (s : Str) (h : '[' ∉ s) :
    (parse cfg' s : Out ParserError (AST F)) = parse cfg s := by
  have e1 : ∀ (rec : Str → Out ParserError (AST F)) (s : Str), '[' ∉ s → parseStep cfg' rec s = parseStep cfg rec s := by
    intro rec s hs
    have hs' : s.contains '[' = false := by simpa using hs
    unfold parseStep parseAtom parseValue
    simp only [hs', Bool.not_false, if_true]
  have e2 : ∀ (n : Nat) (s : Str), '[' ∉ s → (parseFuel cfg' n s : Out ParserError (AST F)) = parseFuel cfg n s := by
    intro n
    induction n with
    | zero => intro _ _; rfl
    | succ n ih =>
      intro s hs
      rw [parseFuel, parseFuel, e1 _ s hs]
      exact parseStep_congr fun t ht => ih t fun hm => hs (ht.2 hm)
  exact e2 _ _ fun hm => h (mem_stripBlanks hm)

end

section
variable {F : Type} [FNum F]

theorem dedup_cfg {cfg cfg' : Cfg} (h : cfg.prec = cfg'.prec) (l acc : List (Value F)) :
    dedupResults cfg' l acc = dedupResults cfg l acc := by
  induction l generalizing acc with
  | nil => rfl
  | cons v l ih => simp only [dedupResults, ih, h]

theorem newton_cfg {cfg cfg' : Cfg} (h : cfg.prec = cfg'.prec) (ev : Evaluator F) (s c : List (AST F)) (x : List (Variable F)) (ctx : Context F) :
    newton cfg' ev s c x ctx = newton cfg ev s c x ctx := by
  unfold newton normSmall jacobiAndGauss calculateDerivativeNewton differenceQuotient
  rw [h]

theorem solveLoop1_cfg {cfg cfg' : Cfg} (h : cfg.prec = cfg'.prec) (ev : Evaluator F) (s c : List (AST F)) (n : Nat) (x : List (Variable F))
    (ctx : Context F) : solveLoop1 cfg' ev s c n x ctx = solveLoop1 cfg ev s c n x ctx := by
  induction n generalizing x ctx with
  | zero => rfl
  | succ n ih => simp only [solveLoop1, newton_cfg h, ih]

theorem solveLoop0_cfg {cfg cfg' : Cfg} (h : cfg.prec = cfg'.prec) (ev : Evaluator F) (s c : List (AST F)) (names : List Str) (js : List Int)
    (ctx : Context F) (res : List (Value F)) : solveLoop0 cfg' ev s c names js ctx res = solveLoop0 cfg ev s c names js ctx res := by
  induction js generalizing ctx res with
  | nil => rfl
  | cons j js ih => simp only [solveLoop0, solveLoop1_cfg h, ih]

theorem cleanResults_cfg {ε : Type} {cfg cfg' : Cfg} (h : cfg.prec = cfg'.prec) (l : List (Value F)) :
    (cleanResults cfg' l : Out ε _) = cleanResults cfg l := by
  cases l with
  | nil => rfl
  | cons v l => simp only [cleanResults, dedup_cfg h]

theorem findRootsLoop_cfg {cfg cfg' : Cfg} (h : cfg.prec = cfg'.prec) (ev : Evaluator F) (rf : RootFinder F) (l : List (List Nat)) :
    findRootsLoop cfg' ev rf l = findRootsLoop cfg ev rf l := by
  induction l with
  | nil => rfl
  | cons i l ih => simp only [findRootsLoop, solveLoop0_cfg h, cleanResults_cfg h, ih]

theorem evalRec_cfg {cfg cfg' : Cfg} (h : cfg.prec = cfg'.prec) (n : Nat) :
    (evalRec cfg' n : AST F → Context F → Str → Out EvalError (List (Value F))) = evalRec cfg n := by
  induction n with
  | zero => rfl
  | succ n ih =>
    funext a ctx last
    rw [evalRec.eq_def, evalRec.eq_def cfg]
    simp only [ih]
    cases a with
    | integral e x lo hi => simp only [calculateIntegral, h]
    | derivative e x at_ => simp only [calculateDerivative, differenceQuotient, h]
    | equation es vs => simp only [solveEquations, RootFinder.findRoots, findRootsLoop_cfg h]
    | _ => rfl

/-- **C101**: the feature `row-major` plays no part in evaluating a tree. -/
theorem C101_eval_orientation {cfg cfg' : Cfg} (h : cfg.prec = cfg'.prec) (n : Nat) (a : AST F) (ctx : Context F) :
    eval cfg' n a ctx = eval cfg n a ctx := by
  unfold eval
  rw [evalRec_cfg h]

/-- **C101**: nor in `solve`. -/
theorem C101_solve_orientation {cfg cfg' : Cfg} (h : cfg.prec = cfg'.prec) (n : Nat) (es : List (AST F × AST F)) (ctx : Context F)
    (vs : List Str) : solve cfg' n es ctx vs = solve cfg n es ctx vs := by
  have : (eval cfg' n : AST F → Context F → Out EvalError (List (Value F))) = eval cfg n := by
    funext a c
    exact C101_eval_orientation h n a c
  simp only [solve, RootFinder.findRoots, this, findRootsLoop_cfg h]

theorem evalRec_plain (cfg cfg' : Cfg) (n : Nat) (a : AST F) (ctx : Context F) (last : Str) (ha : Arithmetical a)
    (hf : ∀ f ∈ ctx.funs, Arithmetical f.ast) : evalRec cfg' n a ctx last = evalRec cfg n a ctx last := by
  induction n generalizing a ctx last with
  | zero => rfl
  | succ n ih =>
    rw [evalRec.eq_def, evalRec.eq_def cfg]
    cases ha with
    | scalar s => rfl
    | vector v hv =>
      simp only
      congr 1
      exact Out.mapM_congr fun i hi => by rw [ih i ctx last (hv i hi) hf]
    | matrix m hm =>
      simp only
      congr 1
      exact Out.mapM_congr fun r hr => Out.mapM_congr fun i hi => by rw [ih i ctx last (hm r hr i hi) hf]
    | list l hl =>
      simp only
      congr 1
      exact Out.mapM_congr fun i hi => ih i ctx last (hl i hi) hf
    | «variable» v => rfl
    | function name as has =>
      simp only
      split
      · rfl
      cases hfn : ctx.findFun name with
      | none => rfl
      | some f =>
        simp only
        split
        · rfl
        have hb : Arithmetical f.ast := hf f (List.mem_of_find?_eq_some hfn)
        rw [Out.mapM_congr (f := fun i => evalRec cfg' n i ctx last) (g := fun i => evalRec cfg n i ctx last)
          fun i hi => ih i ctx last (has i hi) hf]
        refine _root_.bind_congr fun ins => ?_
        congr 1
        exact Out.mapM_congr fun p _ => ih f.ast _ name hb hf
    | simple op l r hl hr =>
      simp only [ih l ctx last hl hf, ih r ctx last hr hf]

/-- **C101**: evaluating a tree without integrals, derivatives and equations (also in the functions it may call) does
not depend on the features at all. -/
theorem C101_eval_precision (cfg cfg' : Cfg) (n : Nat) (a : AST F) (ctx : Context F) (ha : Arithmetical a)
    (hf : ∀ f ∈ ctx.funs, Arithmetical f.ast) : eval cfg' n a ctx = eval cfg n a ctx :=
  evalRec_plain cfg cfg' n a ctx [] ha hf

theorem asString_cfg {cfg cfg' : Cfg} (h : cfg.prec = cfg'.prec) (a : AST F) : a.asString cfg' = a.asString cfg := by
  have hr : ∀ x : F, roundAndFormat cfg' x false = roundAndFormat cfg x false := fun x => by unfold roundAndFormat; rw [h]
  have hall : ∀ l : List (AST F), (∀ a ∈ l, a.asString cfg' = a.asString cfg) → AST.asStringAll cfg' l = AST.asStringAll cfg l := by
    intro l
    induction l with
    | nil => intro _; rfl
    | cons a l ih =>
      intro hl
      simp only [AST.asStringAll, hl a (by simp), ih fun b hb => hl b (by simp [hb])]
  have hrows : ∀ m : List (List (AST F)), (∀ r ∈ m, ∀ a ∈ r, a.asString cfg' = a.asString cfg) → AST.asStringRows cfg' m = AST.asStringRows cfg m := by
    intro m
    induction m with
    | nil => intro _; rfl
    | cons a l ih =>
      intro hl
      simp only [AST.asStringRows, hall a (hl a (by simp)), ih fun b hb => hl b (by simp [hb])]
  have heqs : ∀ m : List (AST F × AST F), (∀ e ∈ m, e.1.asString cfg' = e.1.asString cfg ∧ e.2.asString cfg' = e.2.asString cfg) →
      AST.asStringEqs cfg' m = AST.asStringEqs cfg m := by
    intro m
    induction m with
    | nil => intro _; rfl
    | cons a l ih =>
      intro hl
      obtain ⟨x, y⟩ := a
      have := hl (x, y) (by simp)
      simp only at this
      simp only [AST.asStringEqs, this.1, this.2, ih fun b hb => hl b (by simp [hb])]
  induction a using AST.ind with
  | scalar s => exact hr s
  | vector v ih => simp only [AST.asString, hall v ih]
  | matrix m ih => simp only [AST.asString, hrows m ih]
  | list l ih => simp only [AST.asString, hall l ih]
  | var n => rfl
  | function n l ih => simp only [AST.asString, hall l ih]
  | simple op l r ih1 ih2 => simp only [AST.asString, ih1, ih2]
  | integral e x l u ih1 ih2 ih3 => simp only [AST.asString, ih1, ih2, ih3]
  | derivative e x a ih1 ih2 => simp only [AST.asString, ih1, ih2]
  | equation es vs ih => simp only [AST.asString, heqs es ih]

theorem asLatex_cfg {cfg cfg' : Cfg} (h : cfg.prec = cfg'.prec) (a : AST F) : a.asLatex cfg' = a.asLatex cfg := by
  have hr : ∀ x : F, roundAndFormat cfg' x true = roundAndFormat cfg x true := fun x => by unfold roundAndFormat; rw [h]
  have hall : ∀ l : List (AST F), (∀ a ∈ l, a.asLatex cfg' = a.asLatex cfg) → AST.asLatexAll cfg' l = AST.asLatexAll cfg l := by
    intro l
    induction l with
    | nil => intro _; rfl
    | cons a l ih =>
      intro hl
      simp only [AST.asLatexAll, hl a (by simp), ih fun b hb => hl b (by simp [hb])]
  have hrows : ∀ m : List (List (AST F)), (∀ r ∈ m, ∀ a ∈ r, a.asLatex cfg' = a.asLatex cfg) → AST.asLatexRows cfg' m = AST.asLatexRows cfg m := by
    intro m
    induction m with
    | nil => intro _; rfl
    | cons a l ih =>
      intro hl
      simp only [AST.asLatexRows, hall a (hl a (by simp)), ih fun b hb => hl b (by simp [hb])]
  have heqs : ∀ m : List (AST F × AST F), (∀ e ∈ m, e.1.asLatex cfg' = e.1.asLatex cfg ∧ e.2.asLatex cfg' = e.2.asLatex cfg) →
      AST.asLatexEqs cfg' m = AST.asLatexEqs cfg m := by
    intro m
    induction m with
    | nil => intro _; rfl
    | cons a l ih =>
      intro hl
      obtain ⟨x, y⟩ := a
      have := hl (x, y) (by simp)
      simp only at this
      simp only [AST.asLatexEqs, this.1, this.2, ih fun b hb => hl b (by simp [hb])]
  induction a using AST.ind with
  | scalar s => exact hr s
  | vector v ih => simp only [AST.asLatex, hall v ih]
  | matrix m ih => simp only [AST.asLatex, hrows m ih]
  | list l ih => simp only [AST.asLatex, hall l ih]
  | var n => rfl
  | function n l ih => simp only [AST.asLatex, hall l ih]
  | simple op l r ih1 ih2 => simp only [AST.asLatex, ih1, ih2]
  | integral e x l u ih1 ih2 ih3 => simp only [AST.asLatex, ih1, ih2, ih3]
  | derivative e x a ih1 ih2 => simp only [AST.asLatex, ih1, ih2]
  | equation es vs ih => simp only [AST.asLatex, heqs es ih]

/-- **C101**: nor does `row-major` play a part in printing trees and values: only the number of decimals depends on
the features. -/
theorem C101_printing {cfg cfg' : Cfg} (h : cfg.prec = cfg'.prec) (a : AST F) (v : Value F) :
    a.asString cfg' = a.asString cfg ∧ a.asLatex cfg' = a.asLatex cfg ∧ v.asLatex cfg' = v.asLatex cfg ∧
      (v.asUnicode cfg' : Out String Str) = v.asUnicode cfg := by
  have hr : ∀ (x : F) b, roundAndFormat cfg' x b = roundAndFormat cfg x b := fun x b => by unfold roundAndFormat; rw [h]
  refine ⟨asString_cfg h a, asLatex_cfg h a, ?_, ?_⟩
  · cases v <;> simp only [Value.asLatex, hr]
  · unfold Value.asUnicode Value.prettyPrint
    cases v <;> simp only [hr]

/-- **C101** (from the text): a text without brackets whose tree has no integrals, derivatives and equations gives the
same outcome of `quick_eval` in every build, if no function of the context has any either. -/
theorem C101_quick_eval [UTable] (cfg cfg' : Cfg) (n : Nat) (s : Str) (ctx : Context F) (hs : '[' ∉ s)
    (ha : ∀ a : AST F, parse cfg s = .ok a → Arithmetical a) (hf : ∀ f ∈ ctx.funs, Arithmetical f.ast) :
    quickEval cfg' n s ctx = quickEval cfg n s ctx := by
  unfold quickEval
  rw [C101_no_bracket cfg cfg' s hs]
  cases hp : (parse cfg s : Out ParserError (AST F)) with
  | ok a => simp only [Out.mapErr, Out.ok_bind, C101_eval_precision cfg cfg' n a ctx (ha a hp) hf]
  | err e => simp only [Out.mapErr, Out.err_bind]
  | panic => simp only [Out.mapErr, Out.panic_bind]
  | timeout => simp only [Out.mapErr, Out.timeout_bind]

section
attribute [local instance] UTable.ascii

/-- Non-vacuity: the two readings of `[[a, b, c], [d, e, f]]`. -/
theorem C101_example :
    (parse Cfg.rowMajorCfg "det([[a, b, c], [d, e, f]])".toList : Out ParserError (AST F)) = .ok (.simple .det (.matrix
      [[.variable ['a'], .variable ['b'], .variable ['c']], [.variable ['d'], .variable ['e'], .variable ['f']]]) (.scalar (ofInt 0))) ∧
    (parse Cfg.default "det([[a, b, c], [d, e, f]])".toList : Out ParserError (AST F)) = .ok (.simple .det (.matrix
      [[.variable ['a'], .variable ['d']], [.variable ['b'], .variable ['e']], [.variable ['c'], .variable ['f']]]) (.scalar (ofInt 0))) :=
  ⟨rfl, rfl⟩

/-- Non-vacuity: a text that means the same in every build. -/
theorem C101_example_same (cfg cfg' : Cfg) (n : Nat) (ctx : Context F) (hf : ∀ f ∈ ctx.funs, Arithmetical f.ast) :
    quickEval cfg' n "sqrt(x)*y^z".toList ctx = quickEval cfg n "sqrt(x)*y^z".toList ctx := by
  refine C101_quick_eval cfg cfg' n _ ctx (by decide) (fun a h => ?_) hf
  have : (parse cfg "sqrt(x)*y^z".toList : Out ParserError (AST F)) = .ok (.simple .mult
    (.simple .sqrt (.variable ['x']) (.scalar (ofInt 0))) (.simple .pow (.variable ['y']) (.variable ['z']))) := rfl
  rw [this] at h
  cases h
  exact .simple _ _ _ (.simple _ _ _ (.variable _) (.scalar _)) (.simple _ _ _ (.variable _) (.variable _))

end

end

end MUL
