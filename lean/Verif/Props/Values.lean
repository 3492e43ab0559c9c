import Verif.Model.Values
import Verif.Spec.Values
import Verif.Proofs.Denote
/-!
# C65: values hold what was put into them
-/

namespace MUL
open Out Spec

section
variable {F : Type}

/-- **C65.** A value is of exactly one kind; `get_scalar`, `get_vector` and `get_matrix` return its contents if it is of that kind
and nothing otherwise, and `is_scalar`, `is_vector`, `is_matrix` say which. -/
theorem C65_kinds (v : Value F) :
    (∀ x, v.getScalar = some x ↔ v = .scalar x) ∧ (∀ l, v.getVector = some l ↔ v = .vector l) ∧
    (∀ m, v.getMatrix = some m ↔ v = .matrix m) ∧
    (v.isScalar = true ↔ ∃ x, v = .scalar x) ∧ (v.isVector = true ↔ ∃ l, v = .vector l) ∧ (v.isMatrix = true ↔ ∃ m, v = .matrix m) ∧
    ((v.isScalar = true ∧ v.isVector = false ∧ v.isMatrix = false) ∨ (v.isScalar = false ∧ v.isVector = true ∧ v.isMatrix = false) ∨
      (v.isScalar = false ∧ v.isVector = false ∧ v.isMatrix = true)) := by
  cases v <;> simp [Value.getScalar, Value.getVector, Value.getMatrix, Value.isScalar, Value.isVector, Value.isMatrix]

/-- **C65.** `value!`: one argument makes a scalar, one row of at least two a vector, at least two rows the matrix with these rows. So
neither a vector with one entry nor a matrix with one row can be made with it, and rows of different lengths are not refused. -/
theorem C65_macro :
    (∀ x : F, valueMacro [[x]] = some (.scalar x)) ∧
    (∀ row : List F, 2 ≤ row.length → valueMacro [row] = some (.vector row)) ∧
    (∀ rows : List (List F), 2 ≤ rows.length → (∀ r ∈ rows, r ≠ []) → valueMacro rows = some (.matrix rows)) ∧
    (∀ rows (x : F), valueMacro rows ≠ some (.vector [x])) ∧ (∀ rows (row : List F), valueMacro rows ≠ some (.matrix [row])) := by
  refine ⟨fun x => rfl, ?_, ?_, ?_, ?_⟩
  · rintro (_ | ⟨x, _ | ⟨y, xs⟩⟩) h
    · simp at h
    · simp at h
    · rfl
  · rintro (_ | ⟨r, _ | ⟨s, rows⟩⟩) h hne
    · simp at h
    · simp at h
    · have hall : ((r :: s :: rows).all fun row => !row.isEmpty) = true := by
        rw [List.all_eq_true]
        intro row hrow
        simpa using hne row hrow
      rcases r with _ | ⟨x, _ | ⟨y, r⟩⟩ <;> exact if_pos hall
  · intro rows x h
    unfold valueMacro at h
    split at h <;> simp at h
  · intro rows row h
    unfold valueMacro at h
    split at h <;> simp at h

/-- **C65.** Several values keep their number and order; making a variable from one value stores just this value. -/
theorem C65_several (vs : List (Value F)) (name : Str) (v : Value F) :
    valuesToVec (valuesFromVec vs) = vs ∧ valuesLen vs = vs.length ∧ (∀ i, valuesGet vs i = vs[i]?) ∧
    (∀ i, valuesLen vs ≤ i ↔ valuesGet vs i = none) ∧
    (Variable.new name v).name = name ∧ (Variable.new name v).values = [v] ∧ (Variable.newFromValues name vs).values = vs := by
  have hget : ∀ i, valuesGet vs i = vs[i]? := by
    intro i
    unfold valuesGet
    rw [List.head?_drop]
  refine ⟨rfl, rfl, hget, ?_, rfl, rfl, rfl⟩
  intro i
  rw [hget, List.getElem?_eq_none_iff]
  rfl

variable [FArith F]

/-- **C65.** `is_inf_or_nan` is true exactly if some number in the value is infinite or not a number. -/
theorem C65_nonfinite (v : Value F) :
    v.isInfOrNan = true ↔ ∃ x, Entry x v ∧ (FArith.isInf x = true ∨ FArith.isNaN x = true) := by
  cases v with
  | scalar a =>
    simp only [Value.isInfOrNan, Bool.or_eq_true]
    constructor
    · intro h
      exact ⟨a, .scalar a, h⟩
    · rintro ⟨x, h1, h2⟩
      cases h1
      exact h2
  | vector l =>
    simp only [Value.isInfOrNan, List.any_eq_true, Bool.or_eq_true]
    constructor
    · rintro ⟨x, hx, h⟩
      exact ⟨x, .vector x l hx, h⟩
    · rintro ⟨x, h1, h2⟩
      cases h1
      exact ⟨x, by assumption, h2⟩
  | matrix m =>
    simp only [Value.isInfOrNan, List.any_eq_true, Bool.or_eq_true]
    constructor
    · rintro ⟨row, hr, x, hx, h⟩
      exact ⟨x, .matrix x row m hr hx, h⟩
    · rintro ⟨x, h1, h2⟩
      cases h1
      exact ⟨_, by assumption, x, by assumption, h2⟩

end

section
variable {F : Type} [FArith F] {K : Type} [Field K] [LinearOrder K] [IsStrictOrderedRing K] [FloorRing K] [Exact F K]

theorem beqList_val {l k : List F} (h : ∀ x ∈ l, Exact.val x ≠ none) :
    Value.beqList l k = true ↔ l.map (Exact.val (K := K)) = k.map Exact.val := by
  induction l generalizing k with
  | nil => cases k <;> simp [Value.beqList]
  | cons a l ih =>
    cases k with
    | nil => simp [Value.beqList]
    | cons b k =>
      have ha : Exact.val a ≠ none := h a (by simp)
      obtain ⟨x, hx⟩ := Option.ne_none_iff_exists'.1 ha
      simp only [Value.beqList, Bool.and_eq_true, List.map_cons, List.cons.injEq]
      rw [ih fun y hy => h y (by simp [hy])]
      refine and_congr_left fun _ => ?_
      cases hb : Exact.val b with
      | none => simp [Exact.beq_none_right hx hb, hx]
      | some y => simp [Exact.beq_val hx hb, hx]

theorem beqRows_val {l k : List (List F)} (h : ∀ row ∈ l, ∀ x ∈ row, Exact.val x ≠ none) :
    Value.beqRows l k = true ↔ l.map (fun row => row.map (Exact.val (K := K))) = k.map fun row => row.map Exact.val := by
  induction l generalizing k with
  | nil => cases k <;> simp [Value.beqRows]
  | cons a l ih =>
    cases k with
    | nil => simp [Value.beqRows]
    | cons b k =>
      simp only [Value.beqRows, Bool.and_eq_true, List.map_cons, List.cons.injEq]
      rw [ih fun row hrow => h row (by simp [hrow]), beqList_val (h a (by simp))]

/-- **C65.** `==` on values, if the left one has only finite numbers: same kind, same shape, and the same numbers in the same
places (the two zeros are equal). -/
theorem C65_equal (v w : Value F) (hfin : ∀ x, Entry x v → Exact.val x ≠ none) :
    v.beq w = true ↔ mapNumbers (Exact.val (K := K)) v = mapNumbers Exact.val w := by
  cases v with
  | scalar a =>
    cases w with
    | scalar b =>
      obtain ⟨x, hx⟩ := Option.ne_none_iff_exists'.1 (hfin a (.scalar a))
      cases hb : Exact.val b with
      | none => simp [Value.beq, mapNumbers, Exact.beq_none_right hx hb, hx, hb]
      | some y => simp [Value.beq, mapNumbers, Exact.beq_val hx hb, hx, hb]
    | vector b => simp [Value.beq, mapNumbers]
    | matrix b => simp [Value.beq, mapNumbers]
  | vector a =>
    cases w with
    | vector b =>
      rw [Value.beq, beqList_val fun x hx => hfin x (.vector x a hx)]
      simp [mapNumbers]
    | scalar b => simp [Value.beq, mapNumbers]
    | matrix b => simp [Value.beq, mapNumbers]
  | matrix a =>
    cases w with
    | matrix b =>
      rw [Value.beq, beqRows_val fun row hr x hx => hfin x (.matrix x row a hr hx)]
      simp [mapNumbers]
    | scalar b => simp [Value.beq, mapNumbers]
    | vector b => simp [Value.beq, mapNumbers]

omit [LinearOrder K] [IsStrictOrderedRing K] [FloorRing K] [Exact F K] in
theorem beqList_nan (hnan : ∀ {a b : F}, FArith.isNaN a = true ∨ FArith.isNaN b = true → FArith.beq a b = false) {l k : List F} {x : F}
    (hx : x ∈ l) (h : FArith.isNaN x = true) : Value.beqList l k = false := by
  induction l generalizing k with
  | nil => simp at hx
  | cons a l ih =>
    cases k with
    | nil => rfl
    | cons b k =>
      rw [Value.beqList]
      rcases List.mem_cons.1 hx with rfl | hx
      · rw [hnan (Or.inl h), Bool.false_and]
      · rw [ih hx, Bool.and_false]

include K in
/-- **C65.** A value with a number that is NaN is not equal to anything, not even to itself. -/
theorem C65_nan (v w : Value F) {x : F} (hx : Entry x v) (h : FArith.isNaN x = true) : v.beq w = false := by
  have hnan : ∀ {a b : F}, FArith.isNaN a = true ∨ FArith.isNaN b = true → FArith.beq a b = false := Exact.nan_beq (K := K)
  cases hx with
  | scalar =>
    cases w with
    | scalar b => exact hnan (Or.inl h)
    | vector b => rfl
    | matrix b => rfl
  | vector l hx =>
    cases w with
    | scalar b => rfl
    | vector b => exact beqList_nan hnan hx h
    | matrix b => rfl
  | matrix row rows hr hx =>
    cases w with
    | scalar b => rfl
    | vector b => rfl
    | matrix b =>
      rw [Value.beq]
      induction rows generalizing b with
      | nil => simp at hr
      | cons r rows ih =>
        cases b with
        | nil => rfl
        | cons s b =>
          rw [Value.beqRows]
          rcases List.mem_cons.1 hr with rfl | hr
          · rw [beqList_nan hnan hx h, Bool.false_and]
          · rw [ih hr, Bool.and_false]

end

section
variable {F : Type} [FNum F] [ExactReal F] [UTable]

/-- **C65.** `value!` and matrix literals: the literal with the rows `e` (whose entries have the values `g`) has the value
`value!(g)` with the feature `row-major`; otherwise it is the transposed matrix. -/
theorem C65_literal (cfg : Cfg) (ctx : Context F) {r c : Nat} (e : Fin (r + 2) → Fin (c + 1) → Ex) (g : Fin (r + 2) → Fin (c + 1) → F)
    (hwf : (Ex.mat (grid e)).WF) (h : ∀ i j, Finishes (fun n => eval cfg n ((e i j).tree cfg) ctx) (.ok [.scalar (g i j)])) :
    ∃ v, Finishes (fun n => quickEval cfg n (Ex.mat (grid e)).text ctx) (.ok [v]) ∧
      if cfg.rowMajor then valueMacro (grid g) = some v else v = .matrix (grid fun j i => g i j) := by
  have hrows : List.Forall₂ (List.Forall₂ fun b xs => Finishes (fun n => evalRec cfg n b ctx []) (.ok (xs.map Value.scalar)))
      ((grid e).map fun row => row.map fun e => (e.tree cfg : AST F)) (List.ofFn fun i => List.ofFn fun j => [g i j]) := by
    rw [List.forall₂_map_left_iff, forall₂_ofFn]
    refine ⟨by simp [grid], fun i hi => ?_⟩
    rw [List.forall₂_map_left_iff, forall₂_ofFn]
    refine ⟨by simp only [grid, List.getElem_ofFn, List.length_ofFn], fun j hj => ?_⟩
    simp only [grid, List.getElem_ofFn]
    exact h ⟨i, hi⟩ ⟨j, hj⟩
  have e2 : (treeRows cfg (grid e) : List (List (AST F))) = (grid e).map fun row => row.map fun e => e.tree cfg := by
    rw [treeRows_eq]
    refine List.map_congr_left fun r _ => ?_
    simp [treeAll_eq]
  have e3 : (((grid e).map fun row => row.map fun e => (e.tree cfg : AST F)).headD []).length = c + 1 := by
    simp [grid, List.ofFn_succ]
  have hparse := C29_eval cfg _ ctx (C09_parse_text (F := F) cfg _ hwf)
  simp only [Ex.tree, e2, e3] at hparse
  split
  · next hrm =>
    rw [if_pos hrm] at hparse
    refine ⟨_, (hparse.1 _).1 (matrix_singles hrows), ?_⟩
    exact C65_macro.2.2.1 (grid g) (by simp [grid]) (by
      intro row hrow
      obtain ⟨i, rfl⟩ := List.mem_ofFn.1 hrow
      simp [List.ofFn_succ])
  · next hrm =>
    rw [if_neg hrm] at hparse
    have h1 := forall₂_transpose (n := c + 1) hrows (by
      intro row hrow
      obtain ⟨r', hr', rfl⟩ := List.mem_map.1 hrow
      obtain ⟨i, rfl⟩ := List.mem_ofFn.1 hr'
      simp)
    rw [transpose_ofFn] at h1
    exact ⟨_, (hparse.1 _).1 (matrix_singles (g := fun j i => g i j) h1), rfl⟩

/-- `[[1,2],[3,4]]` and `value!(1,2;3,4)`: the same with the feature `row-major`, transposed without it. -/
example (cfg : Cfg) (ctx : Context F) :
    ∃ (g : Fin 2 → Fin 2 → F) (v : Value F), (∀ i j, Exact.val (g i j) = some ((2 * i.val + j.val + 1 : Nat) : ℝ)) ∧
      Finishes (fun n => quickEval cfg n "[[1,2],[3,4]]".toList ctx) (.ok [v]) ∧
      if cfg.rowMajor then valueMacro [[g 0 0, g 0 1], [g 1 0, g 1 1]] = some v
      else v = .matrix [[g 0 0, g 1 0], [g 0 1, g 1 1]] := by
  let e : Fin 2 → Fin 2 → Ex := fun i j => .num [Char.ofNat (49 + 2 * i.val + j.val)] none
  let g : Fin 2 → Fin 2 → F := fun i j => FArith.ofDec (2 * i.val + j.val + 1) 0
  have hg : ∀ i j, Finishes (fun n => eval cfg n ((e i j).tree cfg) ctx) (.ok [.scalar (g i j)]) := by
    intro i j
    refine ⟨by simp, 1, ?_⟩
    have : ∀ i j : Fin 2, digitsVal [Char.ofNat (49 + 2 * i.val + j.val)] = 2 * i.val + j.val + 1 := by decide
    have h2 := this i j
    simp only [e, g, Ex.tree, eval, evalRec, Option.getD_none, List.append_nil, List.length_nil, h2]
    rfl
  have hwf : (Ex.mat (grid e)).WF := by
    refine ⟨by simp [grid], ⟨⟨wf_num (s := "1") (by decide), wf_num (s := "2") (by decide), trivial⟩,
      ⟨wf_num (s := "3") (by decide), wf_num (s := "4") (by decide), trivial⟩, trivial⟩, 2, by decide, ?_⟩
    intro row hrow
    obtain ⟨i, rfl⟩ := List.mem_ofFn.1 hrow
    refine ⟨by simp, ?_⟩
    intro x hx
    obtain ⟨j, rfl⟩ := List.mem_ofFn.1 hx
    rfl
  obtain ⟨v, h1, h2⟩ := C65_literal cfg ctx e g hwf hg
  refine ⟨g, v, ?_, ?_, ?_⟩
  · intro i j
    simp only [g]
    rw [Exact.val_ofDec]
    simp
  · have htext : (Ex.mat (grid e)).text = "[[1,2],[3,4]]".toList := by decide
    rwa [htext] at h1
  · exact h2

end

/-- Values with numbers that are not finite, and comparisons. -/
example : (Value.vector [FArith.ofInt 1, FArith.nan] : Value (Ext ℚ)).isInfOrNan = true ∧
    (Value.vector [FArith.ofInt 1, FArith.ofInt 2] : Value (Ext ℚ)).isInfOrNan = false ∧
    (Value.scalar FArith.nan : Value (Ext ℚ)).beq (.scalar FArith.nan) = false ∧
    (Value.scalar (FArith.neg (FArith.ofInt 0)) : Value (Ext ℚ)).beq (.scalar (FArith.ofInt 0)) = true ∧
    Entry (FArith.nan : Ext ℚ) (.vector [FArith.ofInt 1, FArith.nan]) ∧ FArith.isNaN (FArith.nan : Ext ℚ) = true :=
  ⟨rfl, rfl, rfl, rfl, .vector _ _ (by simp), rfl⟩

end MUL
